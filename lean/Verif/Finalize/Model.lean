/-
Model of the functions run at exit.
Source: `/repo/src/utils/lifecycle-utils.c`.

A function is its name `f : F`; `adds f` are those it registers itself when it is called (it may have other effects, which the table does not see). A bucket is its seven slots; a slot never written is a null pointer.
A bucket that is freed or no longer pointed to is dropped.
-/
set_option autoImplicit false
namespace Verif.Finalize

/-- `struct plexil_opstack_bucket`, `lifecycle-utils.c:60-65, 77-83`: the slots. -/
def Bucket (F : Type) := Nat → Option F

/-- `new_plexil_opstack_bucket`, `lifecycle-utils.c:77-83`: zeroed. -/
def Bucket.new {F : Type} : Bucket F := fun _ => none

/-- Assignment to a slot, `lifecycle-utils.c:109`. -/
def Bucket.set {F : Type} (b : Bucket F) (i : Nat) (f : F) : Bucket F := fun j => if j = i then some f else b j

/-- `PLEXIL_OPSTACK_BUCKET_SIZE`, `lifecycle-utils.c:60`. -/
def size : Nat := 7

/-- `struct plexil_opstack`, `lifecycle-utils.c:67-74`: the buckets from `head` along `prev`, and `insert_idx`. -/
structure Stack (F : Type) where
  /-- Buckets. -/
  buckets : List (Bucket F)
  /-- `insert_idx` -/
  idx : Nat

/-- `s_finalizers`, `lifecycle-utils.c:148-153`. -/
def Stack.empty {F : Type} : Stack F := ⟨[], 0⟩

/-- `plexil_opstack_push`, `lifecycle-utils.c:85-110`. -/
def Stack.push {F : Type} (s : Stack F) (f : F) : Stack F :=
  match s.buckets with
  | [] => ⟨[Bucket.new.set 0 f], 1⟩
  | b :: bs => if s.idx = size then ⟨Bucket.new.set 0 f :: b :: bs, 1⟩ else ⟨b.set s.idx f :: bs, s.idx + 1⟩

/-- Inside `plexil_opstack_run` (`lifecycle-utils.c:121-138`): `above` are buckets registered in while this one is being worked on (`list->head` points to the first of them, or to `cur`), `cur` is what the
local variable `head` points to, `below` those along its `prev`. -/
structure Frame (F : Type) where
  /-- New buckets. -/
  above : List (Bucket F)
  /-- `head` -/
  cur : Bucket F
  /-- Earlier buckets. -/
  below : List (Bucket F)
  /-- `list->insert_idx` -/
  idx : Nat

/-- `plexil_opstack_push` called by a function being run: `lifecycle-utils.c:85-110`. -/
def Frame.push {F : Type} (s : Frame F) (f : F) : Frame F :=
  if s.idx = size then { s with above := Bucket.new.set 0 f :: s.above, idx := 1 }
  else match s.above with
    | [] => { s with cur := s.cur.set s.idx f, idx := s.idx + 1 }
    | a :: as => { s with above := a.set s.idx f :: as, idx := s.idx + 1 }

/-- The inner loop, `lifecycle-utils.c:129-132`: what is called, in order; `none` is a call of a null pointer. -/
def Frame.loop {F : Type} (adds : F → List F) : Nat → Frame F → List (Option F) × Frame F
  | 0, s => ([], s)
  | i + 1, s =>
    match s.cur i with
    | none => ([none], s)
    | some f =>
      let r := Frame.loop adds i ((adds f).foldl Frame.push s)
      (some f :: r.1, r.2)

/-- The outer loop, `lifecycle-utils.c:123-138`. The new buckets and this one are left. -/
def runFrom {F : Type} (adds : F → List F) (cur : Bucket F) : List (Bucket F) → Nat → Nat → List (Option F)
  | below, i, idx =>
    let r := Frame.loop adds i ⟨[], cur, below, idx⟩
    match below with
    | [] => r.1
    | b :: bs => r.1 ++ runFrom adds b bs size r.2.idx

/-- `plexil_opstack_run`, `lifecycle-utils.c:112-146`: what is called. -/
def Stack.run {F : Type} (adds : F → List F) (s : Stack F) : List (Option F) :=
  match s.buckets with
  | [] => []
  | b :: bs => runFrom adds b bs s.idx s.idx

/-- What the application does: `plexilAddFinalizer`, `plexilRunFinalizers`: `lifecycle-utils.c:155-163`. -/
inductive Ev (F : Type) where
  | add (f : F)
  | run

/-- The table and what each run called. `lifecycle-utils.c:155-163`; after a run the table is empty (`:140-141`). -/
def play {F : Type} (adds : F → List F) : List (Ev F) → Stack F × List (List (Option F))
  | [] => (.empty, [])
  | .add f :: es => let r := play adds es; (r.1.push f, r.2)
  | .run :: es => let r := play adds es; (.empty, r.2 ++ [r.1.run adds])

end Verif.Finalize
