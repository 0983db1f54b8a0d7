import Verif.Value.Basic
import Verif.Text.Model
set_option autoImplicit false
/-!
Model of what IPC messages carry: the encoding of values (`/repo/src/interfaces/IpcUtils/IpcFacade.cc:78-309, 375-477`), and the labels and names under which
received messages are kept (`/repo/src/interfaces/IpcAdapter/IpcAdapter.cc:447-465, 864-896, 1196-1219`).

IPC itself is assumed to transmit a structure unchanged, a C string up to its zero byte. Not modelled: pairs of a planner update, freeing of memory.
-/
namespace Verif.Ipc

open Verif.Value (Byte I32 F64 Str VType Arr Payload Value)
open Verif.Text (printInteger strtol)

/-- A packet with a value: the structures `Plexil…ValueMsg`, `Plexil…ArrayMsg`. `ipc-data-formats.h:85-245`. -/
inductive Wire
  | unknown
  | handle (x : Byte)
  | bool (x : Byte)
  | int (i : I32)
  | real (r : F64)
  | str (s : Str)
  | boolArr (a : List Byte)
  | intArr (a : List I32)
  | realArr (a : List F64)
  | strArr (a : List Str)
deriving DecidableEq, Repr

/-- The result of building a packet. `IpcFacade.cc:159-309`. -/
inductive Built
  | msg (w : Wire)
  | null
  | assertion
deriving DecidableEq, Repr

/-- `c_str()`, as the receiver sees it. `IpcFacade.cc:194, 282, 413, 464`. -/
def cstr (s : Str) : Str := s.takeWhile (fun b => b ≠ 0)

/-- `(unsigned char) b`. `IpcFacade.cc:168, 217`. -/
def byteOf (b : Bool) : Byte := if b then 1 else 0

/-- The loops over the elements of an array: each must be known. `IpcFacade.cc:214-218, 239-240, 259-260, 279-283`. -/
def elements {α : Type} (a : Arr α) : Nat → Nat → Option (List α)
  | _, 0 => some []
  | i, n + 1 =>
    match a.getElement i with
    | none => none
    | some x => (elements a (i + 1) n).map (fun r => x :: r)

/-- An array packet, unless an assertion fails. `IpcFacade.cc:208-294`. -/
def builtArr {α : Type} (f : List α → Wire) : Option (List α) → Built
  | none => .assertion
  | some l => .msg (f l)

/-- `constructPlexilValueMsg`, `IpcFacade.cc:159-309`. -/
def construct : Value → Built
  | .unknown _ => .msg .unknown
  | .known (.bool b) => .msg (.bool (byteOf b))
  | .known (.int i) => .msg (.int i)
  | .known (.real r) => .msg (.real r)
  | .known (.str s) => .msg (.str (cstr s))
  | .known (.handle x) => .msg (.handle x)
  | .known (.boolArr a) => builtArr (fun l => .boolArr (l.map byteOf)) (elements a 0 a.size)
  | .known (.intArr a) => builtArr .intArr (elements a 0 a.size)
  | .known (.realArr a) => builtArr .realArr (elements a 0 a.size)
  | .known (.strArr a) => builtArr (fun l => .strArr (l.map cstr)) (elements a 0 a.size)
  | .known (.nodeState _) => .null
  | .known (.outcome _) => .null
  | .known (.failure _) => .null

/-- `msgFormatForType` has no format for command handles (`IpcFacade.cc:78-151`), so `IPC_publishData` fails and the packet is not sent (`893-904`); a null pointer is
dereferenced (`884`). -/
def published : Built → Option Wire
  | .msg (.handle _) => none
  | .msg w => some w
  | .null => none
  | .assertion => none

/-- The loops over the elements of a packet. `IpcFacade.cc:423-425, 436-438, 449-451, 462-464`. -/
def fill {α : Type} (a : Arr α) : Nat → List α → Arr α
  | _, [] => a
  | i, x :: r => fill (a.setElement i x) (i + 1) r

/-- `getPlexilMsgValue`, `IpcFacade.cc:375-477`. -/
def decode : Wire → Value
  | .unknown => .unknown .unknownT
  | .handle x => .known (.handle x)
  | .bool x => .known (.bool (x != 0))
  | .int i => .known (.int i)
  | .real r => .known (.real r)
  | .str s => .known (.str s)
  | .boolArr l => .known (.boolArr (fill (Arr.ofSize false l.length) 0 (l.map (fun x => x != 0))))
  | .intArr l => .known (.intArr (fill (Arr.ofSize 0 l.length) 0 l))
  | .realArr l => .known (.realArr (fill (Arr.ofSize 0 l.length) 0 l))
  | .strArr l => .known (.strArr (fill (Arr.ofSize [] l.length) 0 l))

/-- What the receiver of a parameter gets, if anything. `IpcFacade.cc:877-905`, `IpcAdapter.cc:894, 925-930`. -/
def transmitted (v : Value) : Option Value := (published (construct v)).map decode

/-! ### Labels and names -/

/-- `(int) serial`. `IpcAdapter.cc:887`. -/
def asInt (serial : BitVec 32) : Int := serial.toInt

/-- The label of a received command, `IpcAdapter.cc:886-888`. -/
def label (serial : BitVec 32) (uid : List Char) : List Char := printInteger (asInt serial) ++ ':' :: uid

/-- `std::string::find(":", 1)`, from position `i`. `IpcAdapter.cc:461`. -/
def findColon : Nat → List Char → Option Nat
  | _, [] => none
  | i, c :: r => if c = ':' then some i else findColon (i + 1) r

/-- `atoi`, which is `(int) strtol(s, nullptr, 10)`. `IpcAdapter.cc:464`. -/
def atoi (s : List Char) : Int :=
  match strtol 10 s with
  | none => 0
  | some (v, _, _) => v

/-- What `SendReturnValue` makes of its first argument: the serial number and the recipient, or the assertion fails. `IpcAdapter.cc:461-469`. -/
def parseLabel (s : List Char) : Option (BitVec 32 × List Char) :=
  match findColon 1 (s.drop 1) with
  | none => none
  | some pos => some (BitVec.ofInt 32 (atoi (s.take pos)), s.drop (pos + 1))

/-- What a plan waits for with `ReceiveMessage`, `ReceiveCommand` and `GetParameter`. `IpcAdapter.cc:482-568`. -/
inductive Wanted
  | message (text : List Char)
  | command (name : List Char)
  | parameter (label : List Char) (i : Nat)
deriving DecidableEq, Repr

/-- The name of the queue: `formatMessageName`, `IpcAdapter.cc:1196-1219`, used in `494, 521, 562, 860, 889-894`. -/
def queueName : Wanted → List Char
  | .message s => s
  | .command n => "__COMMAND__".toList ++ n ++ '_' :: Verif.Text.decimal 0
  | .parameter l i => "__PARAMETER__".toList ++ l ++ '_' :: Verif.Text.decimal i

end Verif.Ipc
