import Verif.Model.Http
/-! The command lines of the two servers: `src/bin/sk_http_server.rs:113-150`, `:217-290` and `src/bin/sk_server.rs:324-415`, `:490`.

Usage and startup messages are in `Console`, daemon mode and binding the socket in `Daemon`. -/

namespace Startup

/-- What the options of the HTTP server amount to: the variables of `src/bin/sk_http_server.rs:218-224`. The name of the log file is read and never used. -/
structure HttpOptions where
  token : Option Str
  adminToken : Option Str
  daemon : Bool
  pidFile : Str
  host : Str
  threads : Nat
deriving DecidableEq

/-- Models `src/bin/sk_http_server.rs:218-224`; the number of processors is external. -/
def httpDefaults (cpus : Nat) : HttpOptions := ⟨none, none, false, c!"skillet-http-server.pid", c!"127.0.0.1", cpus⟩

/-- Models the loop of `src/bin/sk_http_server.rs:227-287`; `none` is the exit with status 1. -/
def httpArgs (o : HttpOptions) : List Str → Option HttpOptions
  | [] => some o
  | w :: rest =>
    if w = c!"-d" ∨ w = c!"--daemon" then httpArgs { o with daemon := true } rest
    else if w = c!"-H" ∨ w = c!"--host" then
      match rest with
      | v :: rest => httpArgs { o with host := v } rest
      | [] => none
    else if w = c!"-t" ∨ w = c!"--threads" then
      match rest with
      | v :: rest =>
        match Str.parseUsize v with
        | some n => if n = 0 then none else httpArgs { o with threads := n } rest
        | none => none
      | [] => none
    else if w = c!"--pid-file" then
      match rest with
      | v :: rest => httpArgs { o with pidFile := v } rest
      | [] => none
    else if w = c!"--log-file" then
      match rest with
      | _ :: rest => httpArgs o rest
      | [] => none
    else if w = c!"--token" then
      match rest with
      | v :: rest => httpArgs { o with token := some v } rest
      | [] => none
    else if w = c!"--admin-token" then
      match rest with
      | v :: rest => httpArgs { o with adminToken := some v } rest
      | [] => none
    else none

/-- `str::parse::<u16>` (core library). -/
def parsePort (s : Str) : Option Nat :=
  match Str.parseUsize s with
  | some n => if n < 65536 then some n else none
  | none => none

/-- What the HTTP server runs with. -/
structure HttpServer where
  port : Nat
  options : HttpOptions
  config : Http.Config

/-- Models `src/bin/sk_http_server.rs:113-150` (`main`) on the words after the program name: the port, the options, the tokens. -/
def httpServer (cpus : Nat) (hooksDir : Option Str) (cwd : Http.Path) : List Str → Option HttpServer
  | [] => none
  | p :: words =>
    match parsePort p with
    | none => none
    | some port =>
      match httpArgs (httpDefaults cpus) words with
      | none => none
      | some o =>
        let (auth, admin) := Http.tokens o.token o.adminToken
        some ⟨port, o, ⟨auth, admin, hooksDir.getD c!"hooks", cwd⟩⟩

/-- What the options of the TCP server amount to: the variables of `src/bin/sk_server.rs:356-361`. -/
structure TcpOptions where
  token : Option Str
  daemon : Bool
  pidFile : Str
  host : Str
  threads : Nat
deriving DecidableEq

/-- Models `src/bin/sk_server.rs:356-361`; the environment variables `SKILLET_BIND_HOST` and `SKILLET_AUTH_TOKEN` are arguments. -/
def tcpDefaults (cpus : Nat) (envHost envToken : Option Str) : TcpOptions :=
  ⟨envToken, false, c!"skillet-server.pid", envHost.getD c!"127.0.0.1", cpus⟩

/-- Models the loop of `src/bin/sk_server.rs:364-413`. -/
def tcpArgs (o : TcpOptions) : List Str → Option TcpOptions
  | [] => some o
  | w :: rest =>
    if w = c!"-d" ∨ w = c!"--daemon" then tcpArgs { o with daemon := true } rest
    else if w = c!"-H" ∨ w = c!"--host" then
      match rest with
      | v :: rest => tcpArgs { o with host := v } rest
      | [] => none
    else if w = c!"--pid-file" then
      match rest with
      | v :: rest => tcpArgs { o with pidFile := v } rest
      | [] => none
    else if w = c!"--log-file" then
      match rest with
      | _ :: rest => tcpArgs o rest
      | [] => none
    else if w = c!"--token" then
      match rest with
      | v :: rest => tcpArgs { o with token := some v } rest
      | [] => none
    else
      match Str.parseUsize w with
      | some n => tcpArgs { o with threads := n } rest
      | none => none

/-- What becomes of starting the TCP server. -/
inductive TcpStart where
  | refused
  /-- `ThreadPool::new(0)` panics (threadpool crate). -/
  | panicked
  | running (port : Nat) (o : TcpOptions)

/-- Models `src/bin/sk_server.rs:324-413` and `:490` (`main`) on the words after the program name. -/
def tcpServer (cpus : Nat) (envHost envToken : Option Str) : List Str → TcpStart
  | [] => .refused
  | p :: words =>
    match parsePort p with
    | none => .refused
    | some port =>
      match tcpArgs (tcpDefaults cpus envHost envToken) words with
      | none => .refused
      | some o => if o.threads = 0 then .panicked else .running port o

end Startup
