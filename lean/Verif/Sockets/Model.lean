set_option autoImplicit false
/-!
Model of the thread that receives datagrams, `/repo/src/interfaces/UdpAdapter/UdpEventLoop.cc`, with the calls of one other thread, in any interleaving.

Simplified: numbers for descriptors, ports, functions and addresses of listeners; a freed listener's address is not used again (file descriptors are, at the kernel's choice); entries with a null pointer in
`m_listeners` are not kept, the function that would follow them fails at once; the memory of a datagram is a list of bytes. The kernel: a socket keeps its datagrams in order until they are
read or it is closed; `poll` waits until something is there; `recvfrom` waits for a datagram; writing to a pipe nobody can read from ends the program (SIGPIPE). `poll`, `read`, `write`, `close`
themselves do not fail. What a listener function does is not modelled, only that it is called. The calls of `openListener`, `closeListener`, `start`, `stop` come one after the other.
-/
namespace Verif.Sockets

/-- A datagram: sender and contents. -/
structure Dgram where
  sender : Nat
  bytes : List Nat
deriving DecidableEq, Repr

/-- A socket in the kernel: port, datagrams not yet read, an error to report. `sid` tells for which call of `openListener` it was made (for specification only). `UdpEventLoop.cc:99-146`. -/
structure Sock where
  port : Nat
  sid : Nat
  queue : List Dgram := []
  err : Bool := false
deriving DecidableEq, Repr

/-- `struct Listener`, `UdpEventLoop.cc:58-82`. `addr` is `addrSizeBuf`, zero at first, 16 after a datagram has been received. -/
structure Listener where
  func : Nat
  maxSize : Nat
  fd : Nat
  port : Nat
  addr : Nat := 0
deriving DecidableEq, Repr

/-- `struct pollfd`, with the bits of `revents` that are looked at. -/
structure Entry where
  fd : Nat
  ready : Bool := false
  err : Bool := false
deriving DecidableEq, Repr

/-- `ControlMsg`, `UdpEventLoop.cc:84-97`. -/
inductive Req
  | add (port : Nat)
  | remove (port : Nat)
deriving DecidableEq, Repr

/-- Where the event thread is: not there; at `poll` (363); at the control pipe (376-418) with `pollfds[0].revents` and `nReady`; in the loop over the descriptors (419-446) with those still to look at
and `nReady`; gone (453-466). `UdpEventLoop.cc:348-467`. -/
inductive Pc
  | off
  | poll
  | control (ctl : Bool) (n : Nat)
  | scan (todo : List Entry) (n : Nat)
  | gone
deriving DecidableEq, Repr

/-- Where the other thread is: in none of the functions, or waiting in one. `UdpEventLoop.cc:228, 258, 328`. -/
inductive Caller
  | idle
  | opening (port : Nat)
  | closing (port : Nat)
  | stopping
deriving DecidableEq, Repr

/-- What a function returned. -/
inductive Ret
  | started (ok : Bool)
  | opened (port : Nat) (ok : Bool)
  | closed (port : Nat)
  | stopped
deriving DecidableEq, Repr

/-- A call of a listener function: for which `openListener`, which function, with what arguments; the sender, if known. `UdpEventLoop.cc:561-563`. -/
structure Call where
  sid : Nat
  func : Nat
  port : Nat
  bytes : List Nat
  sender : Option Nat
deriving DecidableEq, Repr

/-- The arguments of a call of `openListener` that made a socket (for specification only). -/
structure Session where
  port : Nat
  maxLen : Nat
  func : Nat
deriving DecidableEq, Repr

/-- The kernel's sockets; the listeners allocated; `m_listeners`, `m_descriptors`, `m_sem`; the control pipe, whether its ends are open, and whether it was made (`m_pipeFDs[1]` not zero); whether the
thread is joinable; `pollfds` without the first; the threads; what was returned; for specification: the calls of `openListener` that made a socket, the calls of listener functions, and the datagrams that came; whether the program has
crashed; whether a descriptor was closed that was closed already. `UdpEventLoop.cc:148-180`. -/
structure St where
  socks : Nat → Option Sock := fun _ => none
  heap : Nat → Option Listener := fun _ => none
  next : Nat := 0
  ports : Nat → Option Nat := fun _ => none
  descs : Nat → Option Nat := fun _ => none
  sem : Nat := 0
  pipe : List Req := []
  started : Bool := false
  writeOpen : Bool := false
  readOpen : Bool := false
  joinable : Bool := false
  entries : List Entry := []
  pc : Pc := .off
  caller : Caller := .idle
  rets : List Ret := []
  sessions : List Session := []
  calls : List Call := []
  arrived : List (Nat × Dgram) := []
  crashed : Bool := false
  badClose : Bool := false

/-- Change a map at one key. -/
def upd {α : Type} (m : Nat → Option α) (k : Nat) (v : Option α) : Nat → Option α := fun x => if x = k then v else m x

/-- The end of the event thread, `UdpEventLoop.cc:453-466`. -/
def St.exit (s : St) : St := { s with pc := .gone, readOpen := false, descs := fun _ => none, entries := [] }

/-- `addListener`, `UdpEventLoop.cc:471-499`. -/
def St.addListener (s : St) (port : Nat) : St := match s.ports port with
  | none => { s with sem := s.sem + 1 }
  | some a => match s.heap a with
    | none => { s with crashed := true }
    | some l => { s with descs := upd s.descs l.fd (some a), entries := s.entries ++ [⟨l.fd, false, false⟩], sem := s.sem + 1 }

/-- `removeListener`, `UdpEventLoop.cc:504-539`. Erasing what was not found is undefined. -/
def St.removeListener (s : St) (port : Nat) : St := match s.ports port with
  | none => { s with sem := s.sem + 1 }
  | some a => match s.heap a with
    | none => { s with crashed := true }
    | some l =>
      if s.entries.any (fun e => e.fd == l.fd) then
        { s with entries := s.entries.eraseP (fun e => e.fd == l.fd), descs := upd s.descs l.fd none, sem := s.sem + 1 }
      else { s with crashed := true }

/-- `recvfrom` and what follows in `handleFDReady`, `UdpEventLoop.cc:546-566`, for listener `l` at address `a`: a datagram is cut to the size of the buffer; an empty one is not passed on. -/
def St.receive (s : St) (fd a : Nat) (l : Listener) (k : Sock) (d : Dgram) (q : List Dgram) : St :=
  { s with
    socks := upd s.socks fd (some { k with queue := q })
    heap := upd s.heap a (some { l with addr := 16 })
    calls := if d.bytes.take l.maxSize = [] then s.calls
      else s.calls ++ [⟨a, l.func, l.port, d.bytes.take l.maxSize, if l.addr = 0 then none else some d.sender⟩] }

/-- `handleFDReady`, `UdpEventLoop.cc:546-566`; nothing while `recvfrom` waits. -/
def St.handleReady (s : St) (fd a : Nat) : Option St := match s.heap a with
  | none => some { s with crashed := true }
  | some l => match s.socks fd with
    | none => some s
    | some k => match k.queue with
      | [] => none
      | d :: q => some (s.receive fd a l k d q)

/-- What `poll` reports of a descriptor. -/
def St.look (s : St) (e : Entry) : Entry := match s.socks e.fd with
  | some k => ⟨e.fd, !k.queue.isEmpty, k.err⟩
  | none => ⟨e.fd, false, true⟩

/-- What `poll` reports of the control pipe. -/
def St.ctl (s : St) : Bool := !s.pipe.isEmpty || !s.writeOpen

/-- `revents` is not zero. -/
def Entry.any (e : Entry) : Bool := e.ready || e.err

/-- The number of descriptors that are ready. -/
def count (es : List Entry) : Nat := es.countP Entry.any

/-- The result of `poll`. -/
def St.nReady (s : St) : Nat := (if s.ctl then 1 else 0) + count (s.entries.map s.look)

/-- A control message, `UdpEventLoop.cc:404-415`. -/
def St.control (s : St) : Req → St
  | .add p => s.addListener p
  | .remove p => s.removeListener p

/-- One descriptor, `UdpEventLoop.cc:423-445`; nothing while `recvfrom` waits. -/
def St.one (s : St) (e : Entry) (todo : List Entry) (n : Nat) : Option St :=
  if e.any = false then some { s with pc := .scan todo n }
  else match s.descs e.fd with
    | none => some s.exit
    | some a =>
      if e.err then some s.exit
      else match s.handleReady e.fd a with
        | none => none
        | some s' => some { s' with pc := .scan todo (n - 1) }

/-- The next step of the event thread, if it can make one. `UdpEventLoop.cc:348-467`. -/
def St.loop (s : St) : Option St := match s.pc with
  | .off => none
  | .gone => none
  | .poll =>
    if s.nReady = 0 then none
    else some { s with entries := s.entries.map s.look, pc := .control s.ctl s.nReady }
  | .control false n => some { s with pc := .scan s.entries n }
  | .control true n => match s.pipe with
    | [] => some s.exit
    | r :: rest => some { ({ s with pipe := rest } : St).control r with pc := .scan ((({ s with pipe := rest } : St).control r).entries) (n - 1) }
  | .scan [] _ => some { s with pc := .poll }
  | .scan _ 0 => some { s with pc := .poll }
  | .scan (e :: todo) (n + 1) => s.one e todo (n + 1)

/-- `openListener` up to the semaphore, `UdpEventLoop.cc:187-229`; the socket has the descriptor `fd`, or could not be made. -/
def St.openListener (s : St) (port maxLen func : Nat) (fd : Option Nat) : St :=
  if s.started = false then { s with rets := s.rets ++ [.opened port false] }
  else if s.joinable = false then { s with rets := s.rets ++ [.opened port false] }
  else match fd with
    | none => { s with rets := s.rets ++ [.opened port false] }
    | some fd =>
      if s.readOpen = false then { s with crashed := true }
      else match s.ports port with
        | none => { s with
            socks := upd s.socks fd (some ⟨port, s.next, [], false⟩)
            heap := upd s.heap s.next (some ⟨func, maxLen, fd, port, 0⟩)
            ports := upd s.ports port (some s.next)
            next := s.next + 1
            sessions := s.sessions ++ [⟨port, maxLen, func⟩]
            pipe := s.pipe ++ [.add port]
            caller := .opening port }
        | some _ => { s with
            socks := upd s.socks fd (some ⟨port, s.next, [], false⟩)
            next := s.next + 1
            sessions := s.sessions ++ [⟨port, maxLen, func⟩]
            pipe := s.pipe ++ [.add port]
            caller := .opening port }

/-- `closeListener` after the semaphore, `UdpEventLoop.cc:265-277`. -/
def St.finishClose (s : St) (port : Nat) : St := match s.ports port with
  | none => { s with crashed := true }
  | some a => match s.heap a with
    | none => { s with crashed := true }
    | some l => { s with
        socks := upd s.socks l.fd none
        heap := upd s.heap a none
        ports := upd s.ports port none
        caller := .idle
        rets := s.rets ++ [.closed port] }

/-- `closeListener`, `UdpEventLoop.cc:236-263`. -/
def St.closeListener (s : St) (port : Nat) : St :=
  if s.started = false then { s with rets := s.rets ++ [.closed port] }
  else if s.joinable = false then s.finishClose port
  else if s.readOpen = false then { s with crashed := true }
  else { s with pipe := s.pipe ++ [.remove port], caller := .closing port }

/-- `start`, `UdpEventLoop.cc:281-309`. -/
def St.start (s : St) : St :=
  if s.started then { s with rets := s.rets ++ [.started true] }
  else { s with started := true, writeOpen := true, readOpen := true, joinable := true, pc := .poll, rets := s.rets ++ [.started true] }

/-- `stop` after the thread has ended, `UdpEventLoop.cc:331-341`: the sockets of all listeners are closed and the listeners deleted. -/
def St.finishStop (s : St) : St :=
  { s with
    socks := fun fd => match s.socks fd with
      | none => none
      | some k => match s.ports k.port with
        | none => some k
        | some a => match s.heap a with
          | some l => if l.fd = fd then none else some k
          | none => some k
    heap := fun a => match s.heap a with
      | none => none
      | some l => if s.ports l.port = some a then none else some l
    ports := fun _ => none
    joinable := false
    caller := .idle
    rets := s.rets ++ [.stopped] }

/-- `stop`, `UdpEventLoop.cc:312-330`. If the write end is closed already `close` fails, or closes what has got that number since; then it is not waited for the thread. -/
def St.stop (s : St) : St :=
  if s.started = false then { s with rets := s.rets ++ [.stopped] }
  else if s.writeOpen = false then { s with badClose := true, rets := s.rets ++ [.stopped] }
  else { s with writeOpen := false, caller := .stopping }

/-- What may happen: a call; the end of waiting in a call; a datagram comes; an error is noted for a socket; the event thread makes a step. -/
inductive Ev
  | start
  | stop
  | open (port maxLen func : Nat) (fd : Option Nat)
  | close (port : Nat)
  | wake
  | joined
  | arrive (fd : Nat) (d : Dgram)
  | error (fd : Nat)
  | loop
deriving DecidableEq, Repr

/-- The semaphore is taken, `UdpEventLoop.cc:228-232, 258`. -/
def St.wake (s : St) : Option St := match s.sem with
  | 0 => none
  | n + 1 => match s.caller with
    | .opening p => some { s with sem := n, caller := .idle, rets := s.rets ++ [.opened p true] }
    | .closing p => some (({ s with sem := n } : St).finishClose p)
    | _ => none

/-- A datagram comes to an open socket. -/
def St.arrive (s : St) (fd : Nat) (d : Dgram) : Option St := match s.socks fd with
  | none => none
  | some k => some { s with socks := upd s.socks fd (some { k with queue := k.queue ++ [d] }), arrived := s.arrived ++ [(k.sid, d)] }

/-- An error on an open socket. -/
def St.error (s : St) (fd : Nat) : Option St := match s.socks fd with
  | none => none
  | some k => some { s with socks := upd s.socks fd (some { k with err := true }) }

/-- What happens, if it can happen: not after a crash; a call only if none is going on; a new socket has a descriptor that is free. -/
def St.step (s : St) (e : Ev) : Option St :=
  if s.crashed then none
  else match e with
    | .start => if s.caller = .idle then some s.start else none
    | .stop => if s.caller = .idle then some s.stop else none
    | .open p m f none => if s.caller = .idle then some (s.openListener p m f none) else none
    | .open p m f (some fd) => if s.caller = .idle ∧ s.socks fd = none then some (s.openListener p m f (some fd)) else none
    | .close p => if s.caller = .idle then some (s.closeListener p) else none
    | .wake => s.wake
    | .joined => if s.caller = .stopping ∧ s.pc = .gone then some s.finishStop else none
    | .arrive fd d => s.arrive fd d
    | .error fd => s.error fd
    | .loop => s.loop

/-- A run. -/
def St.run (s : St) : List Ev → Option St
  | [] => some s
  | e :: es => match s.step e with
    | none => none
    | some s' => s'.run es

end Verif.Sockets
