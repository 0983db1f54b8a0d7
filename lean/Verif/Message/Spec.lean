import Verif.Message.Model
set_option autoImplicit false
/-!
What C86-C88 are stated with.
-/
namespace Verif.Message
open Verif.Value Verif.Cache
open Verif.Keys (State)

/-- The messages waiting: those that arrived, in order, but for as many as `GetMessageHandle` commands took from the front. -/
def waiting : List Ev → List Msg → List Msg
  | [], q => q
  | .receive m :: r, q => waiting r (q ++ [m])
  | .execute .get _ _ :: r, q => waiting r q.tail
  | _ :: r, q => waiting r q

/-- A message has arrived. -/
def Arrived (evs : List Ev) : Prop := ∃ m, Ev.receive m ∈ evs

/-- The three lookups about the head of the queue. -/
def QueueState (s : State) : Prop := s = haveMessage ∨ s = peekAtMessage ∨ s = peekAtMessageSender

/-- The lookups about one handle. -/
def DataState (h : Str) (s : State) : Prop := s = textState h ∨ s = countState h ∨ s = senderState h ∨ s = arrivedState h ∨ ∃ i, s = paramState h i

/-- No other adapter reports values for these states. -/
def Quiet (P : State → Prop) (evs : List Ev) : Prop := ∀ s v, Ev.value s v ∈ evs → ¬ P s

/-- What the three lookups should read when `q` is the head of the queue. -/
def Shows (c : Cache) (q : Option Msg) : Prop :=
  c.read haveMessage = some (.bool q.isSome) ∧ c.read peekAtMessage = q.map (fun m => .str m.name) ∧ c.read peekAtMessageSender = q.map (fun m => .str m.sender)

/-- What the lookups of a handle should read for message `m`. -/
def Readable (c : Cache) (h : Str) (m : Msg) : Prop :=
  c.read (textState h) = some (.str m.name) ∧ c.read (countState h) = some (.int (BitVec.ofNat 32 m.params.length)) ∧
  c.read (senderState h) = some (.str m.sender) ∧ c.read (arrivedState h) = some (.real m.time) ∧
  ∀ i, i < 2 ^ 31 → c.read (paramState h i) = match m.params[i]? with
    | some (.known p) => some p
    | _ => none

/-- None of the lookups of a handle is known. -/
def Unreadable (c : Cache) (h : Str) : Prop := ∀ s, DataState h s → c.read s = none

/-- The messages that have a handle, and the cache: how they change when `StateCache` is used as it is meant to be – a handle is given to a message only while no message
has it, and released while no lookup of it is registered; other lookups come and go, other states get values. -/
inductive Reach : (Str → Option Msg) → Cache → Prop
  | init : Reach (fun _ => none) (fun _ => none)
  | assign {live c m h c'} : Reach live c → live h = none → m.params.length < 2 ^ 31 → assignMessageHandle c m h = some c' →
      Reach (fun h' => if h' = h then some m else live h') c'
  | release {live c h c'} : Reach live c → (∀ s, DataState h s → (c.entry s).lookups = 0) → releaseMessageHandle c h = some c' →
      Reach (fun h' => if h' = h then none else live h') c'
  | register {live c} (s : State) : Reach live c → Reach live (c.register s)
  | unregister {live c c'} (s : State) : Reach live c → c.unregister s = some c' → Reach live c'
  | value {live c c'} (s : State) (x : Value) : Reach live c → (∀ h, ¬ DataState h s) → c.update s x = some c' → Reach live c'

/-- The command handles an item list contains for a command, in order. -/
def acksOf (cmd : Nat) : List Item → List Nat
  | [] => []
  | .ack c h :: r => if c = cmd then h :: acksOf cmd r else acksOf cmd r
  | _ :: r => acksOf cmd r

/-- The arguments of a command are in order. -/
def ArgsOk : Kind → List Value → Prop
  | .get, _ => True
  | .release, args | .publish, args => ∃ s r, args = .known (.str s) :: r
  | .send, args => ∃ s t r, args = .known (.str s) :: .known (.str t) :: r

end Verif.Message
