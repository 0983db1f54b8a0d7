import Verif.Ipc.Rendezvous
set_option autoImplicit false
/-!
What a well-behaved environment is, for a lookup through IPC.
-/
namespace Verif.Ipc.Rendezvous
variable {Q V : Type} [DecidableEq Q]

/-- The serial number answered by an event, if it is a reply. -/
def Ev.answers : Ev Q V → Option Nat
  | .reply n _ => some n
  | _ => none

/-- The environment behaves: every reply is to a question that was sent, and handled only after the executive has noted the number of its question; every
question is answered at most once; there is no telemetry about a state that is looked up. -/
structure Polite (evs : List (Ev Q V)) : Prop where
  noted : ∀ (pre post : List (Ev Q V)) (n : Nat) (v : V), evs = pre ++ .reply n v :: post → .store n ∈ pre
  once : (evs.filterMap Ev.answers).Nodup
  quiet : ∀ (q : Q) (v : V), .telemetry q v ∈ evs → .start q ∉ evs

end Verif.Ipc.Rendezvous
