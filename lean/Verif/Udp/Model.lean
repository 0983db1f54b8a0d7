import Mathlib.Data.Nat.Digits.Defs
/-!
Model of the UDP adapter: the layout of messages in datagrams, and the queues that pair received messages with the commands that wait for them.
Sources: `/repo/src/interfaces/UdpAdapter/{UdpAdapter,udp-utils,MessageQueueMap,UdpEventLoop}.cc` (the `MessageQueueMap` of `IpcAdapter` is the same).

Simplifications.  Bytes and unsigned integers are natural numbers; a message is shorter than `2^31` bytes.  Reals are an arbitrary type with conversions
to and from 32-bit patterns.  An access outside a buffer is the outcome `crash`.  The network, the event loop and the threads are not modelled: a datagram that arrives is
an event.  The `m_debug` output is left out.
-/
namespace Verif.Udp

/-- Doubles, and C's conversions between them and IEEE single-precision bit patterns: `udp-utils.cc:57-70`, `UdpAdapter.cc:905, 1111, 1119`. -/
structure Flt where
  D : Type
  /-- between `-FLT_MAX` and `FLT_MAX` (or not comparable) -/
  inRange : D → Bool
  toBits : D → Nat
  ofBits : Nat → D
  toBits_lt : ∀ d, toBits d < 2 ^ 32

variable (F : Flt)

/-- The result of an operation on a buffer: `fail` is a reported error, `crash` an access out of bounds (no lines: the behaviour of C++). -/
inductive Out (α : Type)
  | ok (a : α)
  | fail
  | crash

/-- Sequencing: an error or crash ends the operation (`return -1` throughout `UdpAdapter.cc:1004-1312`). -/
def Out.bind {α β : Type} : Out α → (α → Out β) → Out β
  | .ok a, f => f a
  | .fail, _ => .fail
  | .crash, _ => .crash

/-- Types of parameters, without `-array`: `UdpAdapter.cc:103`. -/
inductive Base
  | bool | int | float | string
deriving DecidableEq, Repr

/-- `struct Parameter`, `UdpAdapter.cc:100-106`; the type string is split in base and `-array`. -/
structure Param where
  base : Base
  array : Bool
  len : Nat
  elements : Nat
deriving DecidableEq, Repr

/-- What `parseMessageDefinition` accepts as a parameter: `UdpAdapter.cc:660-757`. -/
def Param.valid (p : Param) : Bool :=
  decide (p.len ≠ 0) &&
  (match p.base with
   | .int => decide (p.len = 2 ∨ p.len = 4)
   | .float => decide (p.len = 2 ∨ p.len = 4)
   | .bool => decide (p.len = 1 ∨ p.len = 2 ∨ p.len = 4)
   | .string => decide (1 ≤ p.len)) &&
  (if p.array then decide (p.elements ≠ 0) else decide (p.elements = 1))

/-- The length of a message: `UdpAdapter.cc:755`. -/
def msgLen : List Param → Nat
  | [] => 0
  | p :: ps => p.len * p.elements + msgLen ps

/-- Scalar values; a string is its bytes (`Value.hh`). -/
inductive Sc
  | bool (b : Bool)
  | int (i : Int)
  | real (d : F.D)
  | str (s : List Nat)

/-- The type of a scalar value (`ValueType.hh:112-147`). -/
def Sc.base {F : Flt} : Sc F → Base
  | .bool _ => .bool
  | .int _ => .int
  | .real _ => .float
  | .str _ => .string

/-- Values: unknown, scalar, or an array of a type with possibly unknown elements (`Value.hh`, `ArrayImpl.hh`). -/
inductive Val
  | unknown
  | scalar (s : Sc F)
  | array (b : Base) (els : List (Option (Sc F)))

/-! ### Bytes -/

/-- Writing bytes at an index of a buffer (`memmove`, `udp-utils.cc:81, 89`, `copy`, `127`). -/
def put (buf : List Nat) (i : Nat) (bs : List Nat) : Out (List Nat) :=
  if i + bs.length ≤ buf.length then .ok (buf.take i ++ bs ++ buf.drop (i + bs.length)) else .crash

/-- Reading bytes (`memmove`, `udp-utils.cc:97, 106`). -/
def fetch (buf : List Nat) (i n : Nat) : Out (List Nat) :=
  if i + n ≤ buf.length then .ok ((buf.drop i).take n) else .crash

/-- `htonl`, as bytes in memory: `udp-utils.cc:79-81`. -/
def bytes4 (n : Nat) : List Nat := [n / 2 ^ 24 % 256, n / 2 ^ 16 % 256, n / 2 ^ 8 % 256, n % 256]
/-- `htons`, as bytes in memory: `udp-utils.cc:87-89`. -/
def bytes2 (n : Nat) : List Nat := [n / 2 ^ 8 % 256, n % 256]
/-- `ntohl`, `ntohs`: `udp-utils.cc:98, 107`. -/
def number (bs : List Nat) : Nat := bs.foldl (fun n b => n * 256 + b) 0

/-- `encode_int32_t`, `udp-utils.cc:77-82`. -/
def enc32 (i : Int) : List Nat := bytes4 (i % 2 ^ 32).toNat
/-- `encode_short_int`, `udp-utils.cc:85-90`. -/
def enc16 (i : Int) : List Nat := bytes2 (i % 2 ^ 16).toNat
/-- A bit pattern as a signed number: the casts in `udp-utils.cc:98, 107`. -/
def signed (bits n : Nat) : Int := if n < 2 ^ (bits - 1) then n else (n : Int) - 2 ^ bits
/-- `decode_int32_t`, `udp-utils.cc:93-99`. -/
def dec32 (bs : List Nat) : Int := signed 32 (number bs)
/-- `decode_short_int`, `udp-utils.cc:102-108`. -/
def dec16 (bs : List Nat) : Int := signed 16 (number bs)

/-! ### Sending -/

/-- One value (or element) written to the buffer: `UdpAdapter.cc:1053-1070, 1078-1096, 1104-1119, 1127-1137` and, for elements, `1168-1178, 1210-1220,
1256-1262, 1289-1295`.  A value of another type is a failure. -/
def writeElem {F : Flt} (b : Base) (len : Nat) (v : Sc F) (buf : List Nat) (i : Nat) : Out (List Nat) :=
  match b, v with
  | .bool, .bool x =>
    if len = 1 then put buf i [x.toNat]
    else if len = 2 then put buf i (enc16 x.toNat)
    else if len = 4 then put buf i (enc32 x.toNat)
    else .fail
  | .int, .int n =>
    if len ≠ 2 ∧ len ≠ 4 then .fail
    else if len = 2 then
      if -32768 > n ∨ n > 32767 then .fail else put buf i (enc16 n)
    else put buf i (enc32 n)
  | .float, .real d =>
    if len ≠ 4 then .fail
    else if F.inRange d then put buf i (bytes4 (F.toBits d)) else .fail
  | .string, .str s => if s.length > len then .fail else put buf i s
  | _, _ => .fail

/-- The loops over the elements of an array: `UdpAdapter.cc:1162-1180, 1204-1222, 1250-1264, 1283-1297`. -/
def writeElems {F : Flt} (b : Base) (len : Nat) : List (Option (Sc F)) → List Nat → Nat → Out (List Nat × Nat)
  | [], buf, i => .ok (buf, i)
  | none :: _, _, _ => .fail
  | some v :: vs, buf, i => (writeElem b len v buf i).bind fun buf => writeElems b len vs buf (i + len)

/-- One argument: `UdpAdapter.cc:1036-1302`. -/
def writeArg {F : Flt} (p : Param) (v : Val F) (buf : List Nat) (i : Nat) : Out (List Nat × Nat) :=
  match v with
  | .unknown => .fail
  | .scalar s =>
    if p.array then .fail
    else if s.base ≠ p.base then .fail
    else (writeElem p.base p.len s buf i).bind fun buf => .ok (buf, i + p.len)
  | .array b els =>
    if p.array then
      if b ≠ p.base then .fail
      else if p.elements ≠ els.length then .fail
      else writeElems p.base p.len els buf i
    else .fail

/-- The loop over the parameters: `UdpAdapter.cc:1031-1306`. -/
def writeArgs {F : Flt} : List Param → List (Val F) → List Nat → Nat → Out (List Nat × Nat)
  | p :: ps, v :: vs, buf, i => (writeArg p v buf i).bind fun r => writeArgs ps vs r.1 r.2
  | _, _, buf, i => .ok (buf, i)

/-- `buildUdpBuffer`, `UdpAdapter.cc:1004-1312` (with `skip_arg` false, as called). -/
def build {F : Flt} (ps : List Param) (args : List (Val F)) (buf : List Nat) : Out (List Nat × Nat) :=
  if args.length ≠ ps.length then .fail else writeArgs ps args buf 0

/-- `executeDefaultCommand`, `UdpAdapter.cc:241-293`, of a command named like a message: `none` is COMMAND_FAILED, `some buf` is COMMAND_SUCCESS with this
datagram sent (272-276: the buffer is zeroed). -/
def send {F : Flt} (ps : List Param) (args : List (Val F)) : Out (Option (List Nat)) :=
  match args with
  | .scalar (.str _) :: _ =>
    match build ps args (List.replicate (msgLen ps) 0) with
    | .ok (buf, _) => .ok (some buf)
    | .fail => .ok none
    | .crash => .crash
  | _ => .ok none

/-! ### Receiving -/

/-- `decode_string`, `udp-utils.cc:130-143`: the bytes up to the first zero. -/
def cString : List Nat → List Nat
  | [] => []
  | c :: cs => if c = 0 then [] else c :: cString cs

/-- One value (or element) read: `UdpAdapter.cc:868-988`. -/
def readElem (F : Flt) (b : Base) (len : Nat) (buf : List Nat) (i : Nat) : Out (Sc F) :=
  match b with
  | .int =>
    if len ≠ 2 ∧ len ≠ 4 then .fail
    else if len = 2 then (fetch buf i 2).bind fun bs => .ok (.int (dec16 bs))
    else (fetch buf i 4).bind fun bs => .ok (.int (dec32 bs))
  | .float =>
    if len ≠ 4 then .fail else (fetch buf i 4).bind fun bs => .ok (.real (F.ofBits (number bs)))
  | .bool =>
    if len = 1 then (fetch buf i 1).bind fun bs => .ok (.bool (decide (number bs ≠ 0)))
    else if len = 2 then (fetch buf i 2).bind fun bs => .ok (.bool (decide (dec16 bs ≠ 0)))
    else if len = 4 then (fetch buf i 4).bind fun bs => .ok (.bool (decide (dec32 bs ≠ 0)))
    else .fail
  | .string => (fetch buf i len).bind fun bs => .ok (.str (cString bs))

/-- The loops over elements: `UdpAdapter.cc:887-890, 914-917, 948-961, 970-973`. -/
def readElems (F : Flt) (b : Base) (len : Nat) : Nat → List Nat → Nat → Out (List (Option (Sc F)))
  | 0, _, _ => .ok []
  | n + 1, buf, i => (readElem F b len buf i).bind fun v => (readElems F b len n buf (i + len)).bind fun vs => .ok (some v :: vs)

/-- One parameter: `UdpAdapter.cc:849-989`. -/
def readArg (F : Flt) (p : Param) (buf : List Nat) (i : Nat) : Out (Val F) :=
  if p.array then (readElems F p.base p.len p.elements buf i).bind fun vs => .ok (.array p.base vs)
  else (readElem F p.base p.len buf i).bind fun v => .ok (.scalar v)

/-- `handleUdpMessage`, `UdpAdapter.cc:847-991`: the values put in the queues of the parameters, in order, and whether all were. -/
def handle (F : Flt) : List Param → List Nat → Nat → Out (List (Val F) × Bool)
  | [], _, _ => .ok ([], true)
  | p :: ps, buf, i => match readArg F p buf i with
    | .crash => .crash
    | .fail => .ok ([], false)
    | .ok v => (handle F ps buf (i + p.len * p.elements)).bind fun r => .ok (v :: r.1, r.2)

/-- `handleFDReady`, `UdpEventLoop.cc:546-566`, and `Listener`, `58-82`: the bytes of the datagram that fit overwrite the beginning of the listener's buffer,
which is then handled as a whole (`UdpAdapter.cc:807-816, 825-827`: the length is not looked at). -/
def receive (F : Flt) (ps : List Param) (buf datagram : List Nat) : List Nat × Out (List (Val F) × Bool) :=
  let got := datagram.take (msgLen ps)
  let buf := got ++ buf.drop got.length
  (buf, handle F ps buf 0)

/-! ### Pairing of messages and recipients -/

/-- `PairingQueue`, `MessageQueueMap.hh:103-115`. -/
structure PQ (V C : Type) where
  recips : List C := []
  msgs : List V := []

/-- `MessageQueueMap`; `out` is the sequence of `handleCommandReturn` calls made, with the queue concerned. -/
structure MQ (K V C : Type) where
  allow : Bool := true
  q : K → PQ V C
  out : List (K × C × V) := []

variable {K V C : Type}

/-- The loop in `updateQueue`, `MessageQueueMap.cc:156-164`: the pairs delivered and what is left. -/
def pair : List C → List V → List (C × V) × PQ V C
  | c :: cs, v :: vs => let r := pair cs vs; ((c, v) :: r.1, r.2)
  | cs, vs => ([], { recips := cs, msgs := vs })

/-- `updateQueue`, `MessageQueueMap.cc:150-169`. -/
def MQ.update [DecidableEq K] (s : MQ K V C) (k : K) : MQ K V C :=
  let r := pair (s.q k).recips (s.q k).msgs
  { s with q := fun k' => if k' = k then r.2 else s.q k', out := s.out ++ r.1.map fun p => (k, p.1, p.2) }

/-- Events. -/
inductive Ev (K V C : Type)
  | recipient (k : K) (c : C)
  | message (k : K) (v : V)
  | allow (b : Bool)
  /-- a waiting command is aborted -/
  | abort (c : C)

/-- `addRecipient`, `MessageQueueMap.cc:60-66`; `addMessage`, `91-101` (and `73-82`); `setAllowDuplicateMessages`, `115-118`; an abort of a command
(`UdpAdapter.cc:532-575`) does not touch the queues. -/
def MQ.step [DecidableEq K] (s : MQ K V C) : Ev K V C → MQ K V C
  | .recipient k c => ({ s with q := fun k' => if k' = k then { s.q k with recips := (s.q k).recips ++ [c] } else s.q k' } : MQ K V C).update k
  | .message k v =>
    let old := if s.allow then (s.q k).msgs else []
    ({ s with q := fun k' => if k' = k then { s.q k with msgs := old ++ [v] } else s.q k' } : MQ K V C).update k
  | .allow b => { s with allow := b }
  | .abort _ => s

/-- A history. -/
def MQ.run [DecidableEq K] (s : MQ K V C) : List (Ev K V C) → MQ K V C
  | [] => s
  | e :: es => (s.step e).run es

/-- The constructor: `MessageQueueMap.cc:43-47`, `MessageQueueMap.hh:50`. -/
def MQ.init (allow : Bool := true) : MQ K V C := { allow := allow, q := fun _ => {} }

/-! ### Names of the queues -/

/-- A number in decimal, as `operator<<` prints it (no lines: the C++ library). -/
def dec (n : Nat) : List Char := if n = 0 then ['0'] else (Nat.digits 10 n).reverse.map Nat.digitChar

/-- The name of a received message that `ReceiveCommand` returns: `UdpAdapter.cc:837-840`. -/
def label (name : List Char) (counter : Nat) : List Char := name ++ ":msg_parameter:".toList ++ dec counter

/-- The queue of a parameter: `formatMessageName`, `UdpAdapter.cc:86-98`, with `GET_PARAMETER_COMMAND` (`467, 852`). -/
def paramKey (l : List Char) (id : Nat) : List Char := "__PARAMETER__".toList ++ l ++ '_' :: dec id

/-- The queue of a message: `formatMessageName` with `RECEIVE_COMMAND_COMMAND` (`325, 842`). -/
def commandKey (name : List Char) : List Char := "__COMMAND__".toList ++ name ++ '_' :: dec 0

/-- What is put in the queues: labels of messages and values of parameters (`Value`s both). -/
inductive Item (F : Flt)
  | label (l : List Char)
  | val (v : Val F)

/-- Putting the values of the parameters in their queues: `UdpAdapter.cc:847-989`; `i` is the index. -/
def paramEvents {C : Type} {F : Flt} (l : List Char) : Nat → List (Val F) → List (Ev (List Char) (Item F) C)
  | _, [] => []
  | i, v :: vs => .message (paramKey l i) (.val v) :: paramEvents l (i + 1) vs

/-- What the adapter does to the queues for a received datagram, given its values: `UdpAdapter.cc:837-991`. -/
def datagramEvents {C : Type} {F : Flt} (name : List Char) (counter : Nat) (vs : List (Val F)) : List (Ev (List Char) (Item F) C) :=
  .message (commandKey name) (.label (label name counter)) :: paramEvents (label name counter) 0 vs

end Verif.Udp
