import Verif.Ipc.Model
set_option autoImplicit false
/-!
What it means that packets arrive interleaved. Nothing here mentions the receiver.
-/
namespace Verif.Ipc

/-- `r` is an interleaving of the lists `ls`: the last to arrive is the last of one of them. -/
inductive Interleaving {α : Type} : List (List α) → List α → Prop
  | none (ls : List (List α)) (h : ∀ l ∈ ls, l = []) : Interleaving ls []
  | last (pre post : List (List α)) (l : List α) (x : α) (r : List α) (h : Interleaving (pre ++ l :: post) r) :
      Interleaving (pre ++ (l ++ [x]) :: post) (r ++ [x])

variable {B : Type}

/-- A message and those of its packets that have arrived. -/
structure Arrival (B : Type) where
  msg : Out B
  got : List (Packet B)

/-- The packets arrived so far: the first ones sent; or, if we began to listen in the middle of the message, some without the leader. -/
def Arrival.Ok (a : Arrival B) : Prop := a.got <+: a.msg.packets ∨ ∃ (k : Nat), a.got <+: (a.msg.packets.tail).drop k

/-- All packets have arrived. -/
def Arrival.Complete (a : Arrival B) : Prop := a.got = a.msg.packets

/-- The message is of a kind that is sent this way, and meant for us: return values are only for who asked. -/
def Out.ForMe (me : String) (m : Out B) : Prop := ∀ (to : String), m.kind = .returnValues to → to = me

/-- The message is a proper one: not the kinds of parameters; a message of the kinds that have no parameters has none; at most 65535 parameters. -/
structure Out.Proper (m : Out B) : Prop where
  kind : m.kind ≠ .trailer ∧ m.kind ≠ .invalid
  single : ∀ (n : Nat), m.kind = .single n → m.params = []
  few : m.params.length < 65536

/-- The identifier of a message. -/
def Out.key (m : Out B) : Key := (m.sender, m.serial)

/-! ### Subscriptions -/

/-- What happened since all listeners were last removed. -/
def sinceReset (acts : List (SubAct B)) : List (SubAct B) :=
  (acts.reverse.takeWhile (fun a => match a with | .unsubscribeAll => false | _ => true)).reverse

/-- The listeners to everything, in the order they subscribed, one entry for every call. -/
def toAll (acts : List (SubAct B)) : List Nat := (sinceReset acts).filterMap (fun a => match a with | .subscribeAll l => some l | _ => none)

/-- The listeners to messages of type `t`, in the order they subscribed, one entry for every call. -/
def toType (t : Nat) (acts : List (SubAct B)) : List Nat :=
  (sinceReset acts).filterMap (fun a => match a with | .subscribe l u => if u = t then some l else none | _ => none)

end Verif.Ipc
