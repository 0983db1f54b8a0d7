import Verif.Notify.Model

/-! What the theorems about change notification say, apart from how it is done. -/
namespace Verif.Notify

/-- The object that stands behind an expression: for a node's state, outcome or failure, the node. -/
def Graph.object (G : Graph) (e : Nat) : Nat :=
  match G.kind e with
  | .proxy t => t
  | _ => e

/-- Is `n` a listener of `e` after this history: was the last call about `n` and the object behind `e` an
`addListener`? -/
def Graph.listening (G : Graph) (es : List Ev) (e n : Nat) : Bool :=
  es.foldl (fun b ev => match ev with
    | .listen e' n' => b || (decide (G.object e' = G.object e) && decide (n' = n))
    | .unlisten e' n' => b && !(decide (G.object e' = G.object e) && decide (n' = n))
    | _ => b) false

/-- How many more times was `e` activated than deactivated from outside? -/
def held (es : List Ev) (e : Nat) : Nat := es.count (.activate e) - es.count (.deactivate e)

/-- Nothing is deactivated from outside more often than it was activated. -/
def Balanced (es : List Ev) : Prop :=
  ∀ a b, es = a ++ b → ∀ e, a.count (.deactivate e) ≤ a.count (.activate e)

/-- A change of the source `v` can change the value of `e`: it is `v`, or stands for `v`, or has an operand
that can change; except that a lookup that is inactive, or that chooses not to publish, keeps its value. -/
inductive Affects (G : Graph) (relay : Nat → Bool) (s : Net) (v : Nat) : Nat → Prop
  | self : (G.kind v).source = true → Affects G relay s v v
  | proxy {e : Nat} : G.kind e = .proxy v → Affects G relay s v e
  | func {e c : Nat} {ss as : List Nat} : G.kind e = .func ss as → c ∈ ss → Affects G relay s v c → Affects G relay s v e
  | lookup {e c n : Nat} {ps : List Nat} {t : Option Nat} : G.kind e = .lookup n ps t → G.active s e = true → relay e = true →
      c = n ∨ c ∈ ps ∨ t = some c → Affects G relay s v c → Affects G relay s v e

/-- `c` is `e`, or an operand of it, or an operand of an operand… -/
inductive Below (G : Graph) : Nat → Nat → Prop
  | self (e : Nat) : Below G e e
  | sub {e d c : Nat} : d ∈ (G.kind e).subs → Below G c d → Below G c e

/-- `c` is kept active by `e`: it is `e`, or what `e` activates, or what that activates… -/
inductive Keeps (G : Graph) : Nat → Nat → Prop
  | self (e : Nat) : Keeps G e e
  | act {e d c : Nat} : Keeps G e d → (G.kind d).counts = true → c ∈ (G.kind d).acts → Keeps G e c

/-- Every expression activates its operands: no aliases. -/
def Graph.NoAlias (G : Graph) : Prop := ∀ e ss as, G.kind e = .func ss as → ∀ c ∈ ss, c ∈ as

end Verif.Notify
