import Verif.Udp.Model
/-!
What C69-C71 are stated with: which values a parameter of a message can carry and what of them arrives; who asked for a message and what came, read off a history.
Nothing here is defined by the functions of the model that write, read or pair.
-/
namespace Verif.Udp
variable {F : Flt}

/-- A scalar of the type can be sent in so many bytes. -/
def Sc.fits (b : Base) (len : Nat) (v : Sc F) : Prop := match b, v with
  | .bool, .bool _ => len = 1 ∨ len = 2 ∨ len = 4
  | .int, .int n => (len = 2 ∧ -32768 ≤ n ∧ n ≤ 32767) ∨ len = 4
  | .float, .real d => len = 4 ∧ F.inRange d = true
  | .string, .str s => s.length ≤ len
  | _, _ => False

/-- PLEXIL integers have 32 bits. -/
def Sc.wf (v : Sc F) : Prop := match v with
  | .int n => -2 ^ 31 ≤ n ∧ n < 2 ^ 31
  | _ => True

/-- What arrives: reals in single precision, strings up to the first zero byte. -/
def Sc.arrives (v : Sc F) : Sc F := match v with
  | .real d => .real (F.ofBits (F.toBits d))
  | .str s => .str (s.takeWhile fun c => decide (c ≠ 0))
  | v => v

/-- The elements are known and each can be sent. -/
def elemsFit (b : Base) (len : Nat) (els : List (Option (Sc F))) : Prop := ∀ o ∈ els, ∃ v, o = some v ∧ v.fits b len
/-- All integers have 32 bits. -/
def elemsWf (els : List (Option (Sc F))) : Prop := ∀ v, some v ∈ els → v.wf

/-- A value can be sent as a parameter. -/
def Val.fits (p : Param) (v : Val F) : Prop := match v with
  | .unknown => False
  | .scalar s => p.array = false ∧ s.fits p.base p.len
  | .array b els => p.array = true ∧ b = p.base ∧ els.length = p.elements ∧ elemsFit p.base p.len els

/-- All integers have 32 bits. -/
def Val.wf (v : Val F) : Prop := match v with
  | .unknown => True
  | .scalar s => s.wf
  | .array _ els => elemsWf els

/-- What arrives. -/
def Val.arrives (v : Val F) : Val F := match v with
  | .unknown => .unknown
  | .scalar s => .scalar s.arrives
  | .array b els => .array b (els.map fun o => o.map Sc.arrives)

/-- Each value can be sent as the parameter in its place. -/
def Fits : List Param → List (Val F) → Prop
  | [], [] => True
  | p :: ps, v :: vs => v.fits p ∧ Fits ps vs
  | _, _ => False

/-- A parameter that is valid, and not a real in 2 bytes. -/
def Param.usable (p : Param) : Prop := p.valid = true ∧ (p.base = .float → p.len = 4)

/-- The value has the type and size of the parameter, and no unknown elements. -/
def Val.isOf (p : Param) (v : Val F) : Prop := match v with
  | .unknown => False
  | .scalar s => p.array = false ∧ s.base = p.base
  | .array b els => p.array = true ∧ b = p.base ∧ els.length = p.elements ∧ ∀ o ∈ els, ∃ v, o = some v ∧ v.base = p.base

/-- A scalar that survives: a real that is a single-precision number, a string without zero bytes. -/
def Sc.exact (v : Sc F) : Prop := match v with
  | .real d => F.ofBits (F.toBits d) = d
  | .str s => 0 ∉ s
  | _ => True

/-- Values that survive. -/
def Val.exact (v : Val F) : Prop := match v with
  | .unknown => True
  | .scalar s => s.exact
  | .array _ els => ∀ s, some s ∈ els → s.exact

variable {K V C : Type} [DecidableEq K]

/-- The commands that asked for a message `k`, in order. -/
def asked (k : K) : List (Ev K V C) → List C
  | [] => []
  | .recipient k' c :: es => if k' = k then c :: asked k es else asked k es
  | _ :: es => asked k es

/-- The messages `k` that came, in order. -/
def came (k : K) : List (Ev K V C) → List V
  | [] => []
  | .message k' v :: es => if k' = k then v :: came k es else came k es
  | _ :: es => came k es

/-- What was delivered from the queue `k`, in order. -/
def delivered (k : K) (s : MQ K V C) : List (C × V) := s.out.filterMap fun p => if p.1 = k then some p.2 else none

/-- Nobody turns the queueing of duplicates off. -/
def keepsAll (es : List (Ev K V C)) : Prop := ∀ e ∈ es, e ≠ .allow false

/-- What happens at the adapter: a datagram (of a message name, with its values) is received, or commands ask. -/
inductive Act (F : Flt) (C : Type)
  | datagram (name : List Char) (vs : List (Val F))
  /-- `ReceiveCommand` -/
  | receiveCommand (name : List Char) (c : C)
  /-- `GetParameter` -/
  | getParameter (l : List Char) (i : Nat) (c : C)

/-- The commands that ask for a parameter of a message, in order. -/
def askers {F : Flt} {C : Type} (l : List Char) (i : Nat) : List (Act F C) → List C
  | [] => []
  | .getParameter l' i' c :: as => if l' = l ∧ i' = i then c :: askers l i as else askers l i as
  | _ :: as => askers l i as

/-- The datagrams, in order. -/
def datagrams {F : Flt} {C : Type} : List (Act F C) → List (List Char × List (Val F))
  | [] => []
  | .datagram name vs :: as => (name, vs) :: datagrams as
  | _ :: as => datagrams as

end Verif.Udp
