import Verif.Library.Model
set_option autoImplicit false
/-! What C110 to C112 say. -/
namespace Verif.Library

/-- The comparator is a strict total order together with equality. -/
structure Total {K : Type} (c : Comp K) : Prop where
  eq : ∀ a b, c.eq a b = true ↔ a = b
  irrefl : ∀ a, c.lt a a = false
  trans : ∀ a b d, c.lt a b = true → c.lt b d = true → c.lt a d = true
  total : ∀ a b, c.lt a b = false → c.lt b a = false → a = b

/-- A change of a function from keys to values: `insert` keeps what is there, `assign` does not. -/
def meaning {K V : Type} [DecidableEq K] (m : K → Option V) : Change K V → K → Option V
  | .insert k v => fun x => if x = k ∧ m k = none then some v else m x
  | .assign k v => fun x => if x = k then some v else m x
  | .clear => fun _ => none

/-- No document is handed over twice. -/
def NotAgain : Op → Prop
  | .again _ => False
  | _ => True

/-- The first of the places where a file is looked for at which there is one. -/
def FirstFile (fs : FS) (places : List (List Char)) (f : File) : Prop :=
  ∃ pre p post, places = pre ++ p :: post ∧ (∀ q ∈ pre, fs q = none) ∧ fs p = some f

/-- Where a file is looked for: as it is named, then in the directories of the search path. -/
def places (paths : List (List Char)) (fname : List Char) : List (List Char) := fname :: paths.map (fun d => d ++ '/' :: fname)

/-- The documents accepted in a history of calls, in order, by the results; `clean` forgets them. -/
def accepted (s : Lib) : List Op → List Doc → List Doc
  | [], acc => acc
  | .clean :: ops, _ => accepted (s.step .clean).1 ops []
  | o :: ops, acc => match (s.step o).2 with
    | .lib d => accepted (s.step o).1 ops (acc ++ [d])
    | _ => accepted (s.step o).1 ops acc

end Verif.Library
