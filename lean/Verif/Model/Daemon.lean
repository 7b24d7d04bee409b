import Verif.Base.Str
/-! Daemon mode of the two servers: `src/bin/http_server/daemon.rs:3-69` (`daemonize`, `write_pid_file`), called by `src/bin/sk_http_server.rs:302-323`
(`handle_daemon_mode`); `src/bin/sk_server.rs:243-311` and `:419-436` are the same code.

Servers started with the same port and the same file for the process number, one or many of them. A process is a sequence of system calls; the scheduler says whose turn it is
and whether the call fails. Process numbers are not reused. Not modelled: what the processes print, the process group, the descriptors and threads of the signal handler,
the loading of functions between the file and the socket. -/

namespace Daemon

/-- What a descriptor stands for. -/
inductive Target where
  /-- something the process was started with, numbered -/
  | inherited (n : Nat)
  | devNull
  | pidFile
  | socket
deriving DecidableEq

/-- A table of descriptors: position `k` is descriptor `k`. -/
abbrev Fds := List (Option Target)

/-- The target of a descriptor. -/
def Fds.at (t : Fds) (k : Nat) : Option Target := (t[k]?).join

/-- The table with descriptor `k` changed. -/
def Fds.put (t : Fds) (k : Nat) (v : Option Target) : Fds := List.set (t ++ List.replicate (k + 1 - t.length) none) k v

/-- The lowest number that is not open: the one the next `open`, `socket` or `accept` gets (POSIX). -/
def Fds.lowest (t : Fds) : Nat := (t.takeWhile Option.isSome).length

/-- The next system call of a process. -/
inductive Point where
  /-- the first `fork`: `daemon.rs:9-18` -/
  | fork1
  /-- `setsid`: `daemon.rs:21-23` -/
  | setsid
  /-- the second `fork`: `daemon.rs:26-35` -/
  | fork2
  /-- `close` of descriptors 0 to 2: `daemon.rs:41-45` -/
  | close (k : Nat)
  /-- `open` of `/dev/null`: `daemon.rs:48-51` -/
  | open
  /-- `dup2(null_fd, k)`: `daemon.rs:53-58` -/
  | dup (fd k : Nat)
  /-- the end of the scope of `dev_null`, which closes it: `daemon.rs:61` -/
  | drop (fd : Nat)
  /-- `File::create(pid_file)`: `daemon.rs:68` -/
  | create
  /-- `writeln!`: the number, then the end of the line, which are two writes: `daemon.rs:69` -/
  | write (fd done : Nat)
  /-- the end of the scope of `file`: `daemon.rs:71` -/
  | closeFile (fd : Nat)
  /-- `TcpListener::bind`: `src/bin/sk_http_server.rs:349-362`, `src/bin/sk_server.rs:464-468` -/
  | bind
  /-- the accept loop -/
  | serving
  /-- `std::process::exit(0)` of a process that has forked: `daemon.rs:14-17`, `daemon.rs:31-34` -/
  | leave
  /-- ended, with a status, or killed -/
  | exited (status : Option Nat)
deriving DecidableEq

/-- A session: one of the user's, or one that a process made with `setsid` and leads. -/
inductive Session where
  | users (n : Nat)
  | ledBy (pid : Nat)
deriving DecidableEq

/-- A process. -/
structure Proc where
  /-- The process the user started. -/
  root : Nat
  session : Session
  fds : Fds
  point : Point
deriving DecidableEq

/-- The machine: processes by number, the next number, the file with the process number, who listens on the port. -/
structure World where
  procs : Nat → Option Proc
  next : Nat
  file : Option Str
  listening : Option Nat

/-- Writes `chunk` at position `k`, as `write` at the position of a descriptor does. -/
def writeAt (old : Str) (k : Nat) (chunk : Str) : Str := (old ++ List.replicate (k - old.length) '\x00').take k ++ chunk ++ old.drop (k + chunk.length)

/-- The number as `{}` writes it. -/
def digits (n : Nat) : Str := Nat.toDigits 10 n

/-- The machine with a process changed. -/
def World.put (w : World) (pid : Nat) (p : Proc) : World := { w with procs := fun q => if q = pid then some p else w.procs q }

/-- One system call of process `pid`; `fails` says whether a call that can fail does. Models `src/bin/http_server/daemon.rs:4-71` and its call. -/
def World.act (w : World) (pid : Nat) (p : Proc) (fails : Bool) : World :=
  let go (q : Point) : World := w.put pid { p with point := q }
  match p.point with
  | .fork1 =>
    if fails then go (.exited (some 1))
    else { (go .leave).put w.next { p with point := .setsid } with next := w.next + 1 }
  | .setsid => if fails then go (.exited (some 1)) else w.put pid { p with session := .ledBy pid, point := .fork2 }
  | .fork2 =>
    if fails then go (.exited (some 1))
    else { (go .leave).put w.next { p with point := .close 0 } with next := w.next + 1 }
  | .close k => w.put pid { p with fds := p.fds.put k none, point := if k < 2 then .close (k + 1) else .open }
  | .open =>
    if fails then go (.exited (some 1))
    else w.put pid { p with fds := p.fds.put p.fds.lowest (some .devNull), point := .dup p.fds.lowest 0 }
  | .dup fd k => w.put pid { p with fds := p.fds.put k (p.fds.at fd), point := if k < 2 then .dup fd (k + 1) else .drop fd }
  | .drop fd => w.put pid { p with fds := p.fds.put fd none, point := .create }
  | .create =>
    if fails then go (.exited (some 1))
    else { w.put pid { p with fds := p.fds.put p.fds.lowest (some .pidFile), point := .write p.fds.lowest 0 } with file := some [] }
  | .write fd done =>
    if fails then go (.exited (some 1))
    else if done = 0 then { go (.write fd (digits pid).length) with file := w.file.map (writeAt · 0 (digits pid)) }
    else { go (.closeFile fd) with file := w.file.map (writeAt · done ['\n']) }
  | .closeFile fd => w.put pid { p with fds := p.fds.put fd none, point := .bind }
  | .bind =>
    if fails || w.listening.isSome then go (.exited (some 1))
    else { w.put pid { p with fds := p.fds.put p.fds.lowest (some .socket), point := .serving } with listening := some pid }
  | .serving => w
  | .leave => go (.exited (some 0))
  | .exited _ => w

/-- What can happen. -/
inductive Event where
  /-- The user starts the server with `-d` in a session, with descriptors. -/
  | start (session : Nat) (fds : Fds)
  /-- A turn of a process. -/
  | turn (pid : Nat) (fails : Bool)
  /-- A process is stopped: by the signal that the loop looks for (`src/bin/sk_http_server.rs:159`, `:183-186`), or before the loop. The socket is closed;
  nothing removes the file. -/
  | stop (pid : Nat)

/-- One event. Models `src/bin/sk_http_server.rs:134-137` for `start`. -/
def World.step (w : World) : Event → World
  | .start s fds => { w.put w.next ⟨w.next, .users s, fds, .fork1⟩ with next := w.next + 1 }
  | .turn pid fails =>
    match w.procs pid with
    | some p => w.act pid p fails
    | none => w
  | .stop pid =>
    match w.procs pid with
    | some p => match p.point with
      | .exited _ => w
      | .serving => { w.put pid { p with point := .exited (some 0) } with listening := if w.listening = some pid then none else w.listening }
      | _ => w.put pid { p with point := .exited none }
    | none => w

/-- The machine after a history; no process of a server at the start. -/
def World.after (first : Nat) (file : Option Str) (h : List Event) : World := h.foldl World.step ⟨fun _ => none, first, file, none⟩

end Daemon
