import Verif.Sockets.Model
set_option autoImplicit false
/-! What C113 and C114 say. -/
namespace Verif.Sockets

/-- What a listener function should be called with for a datagram: function, port, contents cut to the size asked for; nothing if nothing is left. -/
def deliver (se : Session) (d : Dgram) : Option (Nat × Nat × List Nat) :=
  if d.bytes.take se.maxLen = [] then none else some (se.func, se.port, d.bytes.take se.maxLen)

/-- The calls made for the `i`-th listener opened. -/
def callsOf (s : St) (i : Nat) : List (Nat × Nat × List Nat) := (s.calls.filter (fun c => c.sid = i)).map (fun c => (c.func, c.port, c.bytes))

/-- The datagrams that came to the socket of the `i`-th listener opened. -/
def arrivedAt (s : St) (i : Nat) : List Dgram := (s.arrived.filter (fun x => x.1 = i)).map (fun x => x.2)

/-- Proper use: no port is opened that is open, none closed that is not; `stop` is called once; no socket has an error. -/
def Proper (s : St) : Ev → Prop
  | .open p _ _ _ => s.ports p = none
  | .close p => s.ports p ≠ none ∨ s.started = false
  | .stop => s.writeOpen = true ∨ s.started = false
  | .error _ => False
  | _ => True

/-- A run of proper use. -/
inductive Reach : St → St → Prop
  | refl (s : St) : Reach s s
  | step {s s' s'' : St} (e : Ev) : Reach s s' → Proper s' e → s'.step e = some s'' → Reach s s''

/-- The event thread makes `n` steps, nobody else does anything. -/
def loops : Nat → St → Option St
  | 0, s => some s
  | n + 1, s => match s.step .loop with
    | none => none
    | some s' => loops n s'

end Verif.Sockets
