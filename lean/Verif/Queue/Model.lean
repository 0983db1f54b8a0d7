/-
Model of the intrusive queues of `/repo/src/utils/LinkedQueue.hh`: class templates `LinkedQueue`
and `PriorityQueue`.

Items are identified by numbers; the `next` pointer of each item lives in a heap shared by all queues.
A traversal loop takes a fuel argument; running out of fuel stands for a traversal that has not ended
(a cyclic chain never does). Null dereferences and failed `assertTrue_1` are distinct errors.
`size_t` counts are natural numbers; `--m_count` at 0 is a distinct error (it would wrap).
-/
namespace Verif.Queue

/-- Item identity (its address). `LinkedQueue.hh:40-66` -/
abbrev Item := Nat

/-- The `next` field of every item (`item->next()`, `*(item->nextPtr())`). `LinkedQueue.hh:40-66` -/
abbrev Heap := Item → Option Item

/-- `*(a->nextPtr()) = v`. `LinkedQueue.hh:173, 216` -/
def Heap.set (h : Heap) (a : Item) (v : Option Item) : Heap := fun x => if x = a then v else h x

/-- What a queue operation can fail with: `assertTrue_1` (`LinkedQueue.hh:154, 168-169`), a null dereference, a count below 0, or a traversal that has not ended. -/
inductive Err
  | assertion | nullDeref | underflow | fuel
deriving DecidableEq, Repr

/-- `LinkedQueue` data members, `LinkedQueue.hh:69-71`. -/
structure LQ where
  head : Option Item := none
  tail : Option Item := none
  count : Nat := 0
deriving DecidableEq, Repr

/-- `empty()`, `LinkedQueue.hh:106-109`. -/
def LQ.empty (q : LQ) : Bool := q.head.isNone

/-- `front()`, `LinkedQueue.hh:91-94`. -/
def LQ.front (q : LQ) : Option Item := q.head

/-- `size()`, `LinkedQueue.hh:99-102`. -/
def LQ.size (q : LQ) : Nat := q.count

/-- `--m_count`. `LinkedQueue.hh:160` -/
def decr (n : Nat) : Except Err Nat := if n = 0 then .error .underflow else .ok (n - 1)

/-- `pop()`, `LinkedQueue.hh:141-161`. -/
def pop (h : Heap) (q : LQ) : Except Err (Heap × LQ) :=
  match q.head with
  | none => .ok (h, q)
  | some old =>
    if q.head = q.tail then do
      let c ← decr q.count
      .ok (h.set old none, { head := none, tail := none, count := c })
    else
      match h old with
      | none => .error .assertion
      | some nxt => do
        let c ← decr q.count
        .ok (h.set old none, { q with head := some nxt, count := c })

/-- `push(item)`, `LinkedQueue.hh:166-178`. (`item` non-null.) -/
def push (h : Heap) (q : LQ) (item : Item) : Except Err (Heap × LQ) :=
  if (h item).isSome then .error .assertion
  else
    let h := h.set item none
    match q.head with
    | none => .ok (h, { head := some item, tail := some item, count := q.count + 1 })
    | some _ =>
      match q.tail with
      | none => .error .nullDeref
      | some t => .ok (h.set t (some item), { q with tail := some item, count := q.count + 1 })

/-- `insert_after(it, item)`, `LinkedQueue.hh:183-198`. Note `m_tail = nxt` where `nxt` is null. -/
def insertAfter (h : Heap) (q : LQ) (it : Option Item) (item : Item) : Except Err (Heap × LQ) :=
  match it with
  | none => push h q item
  | some p =>
    let nxt := h p
    let h := (h.set p (some item)).set item nxt
    match nxt with
    | none => .ok (h, { q with tail := nxt, count := q.count + 1 })
    | some _ => .ok (h, { q with count := q.count + 1 })

/-- `*(prevNextPtr) = v`, where `prevNextPtr` is `&m_head` (`prev = none`) or `prev->nextPtr()`. `LinkedQueue.hh:210-216` -/
def setLink (h : Heap) (q : LQ) (prev : Option Item) (v : Option Item) : Heap × LQ :=
  match prev with
  | none => (h, { q with head := v })
  | some p => (h.set p v, q)

/-- The loops of `remove`, `LinkedQueue.hh:209-222`, and `remove_if`, `LinkedQueue.hh:256-273`: find the first
entry satisfying `pred`, unlink it, fix `m_tail`; also returns the entry found. -/
def unlinkLoop (pred : Item → Bool) (h : Heap) (q : LQ) :
    Nat → Option Item → Option Item → Except Err (Heap × LQ × Option Item)
  | _, _, none => .ok (h, q, none)
  | 0, _, some _ => .error .fuel
  | fuel + 1, prev, some cur =>
    if pred cur then
      let (h', q') := setLink h q prev (h cur)
      let q' := if q'.tail = some cur then { q' with tail := prev } else q'
      .ok (h', q', some cur)
    else unlinkLoop pred h q fuel (some cur) (h cur)

/-- `remove(item)`, `LinkedQueue.hh:204-228`. -/
def remove (fuel : Nat) (h : Heap) (q : LQ) (item : Option Item) : Except Err (Heap × LQ) :=
  match item with
  | none => .ok (h, q)
  | some x =>
    if q.empty then .ok (h, q)
    else do
      let (h, q, found) ← unlinkLoop (fun c => x == c) h q fuel none q.head
      match found with
      | none => .ok (h, q)
      | some _ => do
        let c ← decr q.count
        .ok (h.set x none, { q with count := c })

/-- `find_if(pred)`, `LinkedQueue.hh:233-246`. -/
def findIf (pred : Item → Bool) (h : Heap) : Nat → Option Item → Except Err (Option Item)
  | _, none => .ok none
  | 0, some _ => .error .fuel
  | fuel + 1, some cur => if pred cur then .ok (some cur) else findIf pred h fuel (h cur)

/-- `remove_if(pred)`, `LinkedQueue.hh:251-280`. -/
def removeIf (fuel : Nat) (pred : Item → Bool) (h : Heap) (q : LQ) :
    Except Err (Heap × LQ × Option Item) := do
  let (h, q, found) ← unlinkLoop pred h q fuel none q.head
  match found with
  | none => .ok (h, q, none)
  | some r => do
    let c ← decr q.count
    .ok (h.set r none, { q with count := c }, some r)

/-- The loop of `clear()`, `LinkedQueue.hh:285-290`. -/
def clearLoop (h : Heap) : Nat → Option Item → Except Err Heap
  | _, none => .ok h
  | 0, some _ => .error .fuel
  | fuel + 1, some cur => clearLoop (h.set cur none) fuel (h cur)

/-- `clear()`, `LinkedQueue.hh:283-294`. -/
def clear (fuel : Nat) (h : Heap) (q : LQ) : Except Err (Heap × LQ) := do
  let h ← clearLoop h fuel q.head
  .ok (h, {})

/-- Iterating `begin()..end()` with `operator++`, `LinkedQueue.hh:113-137, 326-345`. -/
def iterate (h : Heap) : Nat → Option Item → Except Err (List Item)
  | _, none => .ok []
  | 0, some _ => .error .fuel
  | fuel + 1, some cur => do
    let r ← iterate h fuel (h cur)
    .ok (cur :: r)

/-- The search loop of `PriorityQueue::insert`, `LinkedQueue.hh:475-482`: returns (prev, cur). -/
def findPlace (comp : Item → Item → Bool) (item : Item) (h : Heap) :
    Nat → Option Item → Option Item → Except Err (Option Item × Option Item)
  | _, prev, none => .ok (prev, none)
  | 0, _, some _ => .error .fuel
  | fuel + 1, prev, some cur =>
    if comp item cur then .ok (prev, some cur)
    else findPlace comp item h fuel (some cur) (h cur)

/-- `PriorityQueue::insert(item)`, `LinkedQueue.hh:465-495`. -/
def pqInsert (fuel : Nat) (comp : Item → Item → Bool) (h : Heap) (q : LQ) (item : Item) :
    Except Err (Heap × LQ) :=
  match q.head with
  | none => push h q item
  | some _ => do
    let (prev, cur) ← findPlace comp item h fuel none q.head
    match cur with
    | some c =>
      let h := h.set item (some c)
      let (h, q) := setLink h q prev (some item)
      .ok (h, { q with count := q.count + 1 })
    | none =>
      match q.tail with
      | none => .error .nullDeref
      | some t =>
        let h := (h.set item none).set t (some item)
        .ok (h, { q with tail := some item, count := q.count + 1 })

/-- The loop of `front_count`, `LinkedQueue.hh:504-513`. -/
def frontCountLoop (comp : Item → Item → Bool) (h : Heap) :
    Nat → Item → Nat → Except Err Nat
  | fuel, cur, result =>
    match h cur with
    | none => .ok result
    | some nxt =>
      if comp cur nxt then .ok result
      else
        match fuel with
        | 0 => .error .fuel
        | fuel + 1 => frontCountLoop comp h fuel nxt (result + 1)

/-- `PriorityQueue::front_count()`, `LinkedQueue.hh:499-514`. -/
def frontCount (fuel : Nat) (comp : Item → Item → Bool) (h : Heap) (q : LQ) : Except Err Nat :=
  if q.count ≤ 1 then .ok q.count
  else
    match q.head with
    | none => .error .nullDeref
    | some hd => frontCountLoop comp h fuel hd 1

end Verif.Queue
