import Verif.Model.Startup
import Verif.Model.Daemon
/-! Starting the two servers, as seen on the terminal: `src/bin/sk_http_server.rs:113-385`, `src/bin/http_server/auth.rs:49-113` and `src/bin/sk_server.rs:324-490`.

What the operating system and the loader of functions answer is an argument (`Machine`). Not modelled: a failure to install the signal handler (`expect`), what is printed once the
server runs (`HTTP request read error: ...`, `Error accepting connection: ...`, the shutdown lines), and platforms other than unix. -/

namespace Console

open Startup

/-- Where `daemonize` fails: `src/bin/http_server/daemon.rs:9-51`; the last one with what the system says. -/
inductive DetachFailure where
  | fork1
  | setsid
  | fork2
  | devNull (why : Str)
deriving DecidableEq

/-- What the machine answers while a server starts. -/
structure Machine where
  /-- `num_cpus::get()` -/
  cpus : Nat
  /-- `SKILLET_HOOKS_DIR` -/
  hooksDir : Option Str
  /-- `SKILLET_BIND_HOST` (TCP server) -/
  envHost : Option Str
  /-- `SKILLET_AUTH_TOKEN` (TCP server) -/
  envToken : Option Str
  cwd : Http.Path
  detach : Option DetachFailure
  /-- the file for the process number cannot be written -/
  pidFileFails : Bool
  /-- `auto_register`: the number of functions, or an error -/
  functions : Except Str Nat
  /-- why the port cannot be bound, if it cannot -/
  bind : Option Str
  /-- why the socket cannot be made non-blocking, if it cannot -/
  nonblocking : Option Str
  /-- the lines of a panic -/
  panicText : List Str

/-- What becomes of a start: the lines on the terminal, the exit status of the process the user started (`none`: it goes on), the server that then accepts connections. -/
structure Start (α : Type) where
  terminal : List Str
  status : Option Nat
  server : Option α

/-- Models `src/bin/sk_http_server.rs:188-214` (`print_usage`). -/
def httpUsage : List Str :=
  [c!"Usage: sk_http_server <port> [options]", c!"", c!"Options:",
   c!"  -d, --daemon         Run as daemon (background process)",
   c!"  -H, --host <addr>    Bind host/interface (default: 127.0.0.1)",
   c!"  -t, --threads <num>  Number of worker threads (default: CPU count)",
   c!"  --pid-file <file>    Write PID to file (default: skillet-http-server.pid)",
   c!"  --log-file <file>    Write logs to file (daemon mode only)",
   c!"  --token <value>      Require token for eval requests",
   c!"  --admin-token <val>  Require admin token for JS function management",
   c!"", c!"Examples:",
   c!"  sk_http_server 5074",
   c!"  sk_http_server 5074 --host 0.0.0.0 --threads 8",
   c!"  sk_http_server 5074 --host 0.0.0.0 --token secret123",
   c!"  sk_http_server 5074 --admin-token admin456 --threads 16",
   c!"  sk_http_server 5074 --token secret123 --admin-token admin456",
   c!"  sk_http_server 5074 -d --pid-file /var/run/skillet-http.pid --threads 12",
   c!"  sk_http_server 5074 -d --host 0.0.0.0 --token secret123 --admin-token admin456",
   c!"", c!"Endpoints:",
   c!"  GET  /health          - Health check with cache stats",
   c!"  GET  /                - API documentation",
   c!"  POST /eval            - Evaluate expressions (JSON)",
   c!"  GET  /eval?expr=...   - Evaluate expressions (query params)",
   c!"  DELETE /cache         - Clear expression cache (admin token required)"]

/-- Models `src/bin/sk_http_server.rs:217-302` (`parse_args`) with what it prints before it exits. `Startup.httpArgs` is the same loop without the messages. -/
def httpArgs (o : HttpOptions) : List Str → Except Str HttpOptions
  | [] => .ok o
  | w :: rest =>
    if w = c!"-d" ∨ w = c!"--daemon" then httpArgs { o with daemon := true } rest
    else if w = c!"-H" ∨ w = c!"--host" then
      match rest with
      | v :: rest => httpArgs { o with host := v } rest
      | [] => .error c!"Error: --host requires an address"
    else if w = c!"-t" ∨ w = c!"--threads" then
      match rest with
      | v :: rest =>
        match Str.parseUsize v with
        | some n => if n = 0 then .error c!"Error: Thread count must be greater than 0" else httpArgs { o with threads := n } rest
        | none => .error c!"Error: Invalid thread count"
      | [] => .error c!"Error: --threads requires a number"
    else if w = c!"--pid-file" then
      match rest with
      | v :: rest => httpArgs { o with pidFile := v } rest
      | [] => .error c!"Error: --pid-file requires a filename"
    else if w = c!"--log-file" then
      match rest with
      | _ :: rest => httpArgs o rest
      | [] => .error c!"Error: --log-file requires a filename"
    else if w = c!"--token" then
      match rest with
      | v :: rest => httpArgs { o with token := some v } rest
      | [] => .error c!"Error: --token requires a value"
    else if w = c!"--admin-token" then
      match rest with
      | v :: rest => httpArgs { o with adminToken := some v } rest
      | [] => .error c!"Error: --admin-token requires a value"
    else .error (c!"Error: Unknown argument: " ++ w)

/-- Models `src/bin/http_server/auth.rs:49-56` (`TokenConfig`), the warnings. -/
structure Warnings where
  devMode : Bool := false
  sameToken : Bool := false
  adminInherited : Bool := false
  evalInherited : Bool := false
deriving DecidableEq

/-- Models `src/bin/http_server/auth.rs:59-94` (`TokenConfig::new`), the warnings; the tokens are `Http.tokens`. -/
def warnings : Option Str → Option Str → Warnings
  | none, none => { devMode := true }
  | some _, none => { adminInherited := true }
  | none, some _ => { evalInherited := true }
  | some a, some b => { sameToken := a == b }

/-- Models `src/bin/http_server/auth.rs:97-113` (`print_warnings`). -/
def Warnings.print (w : Warnings) : List Str :=
  (if w.devMode then
    [c!"⚠️  WARNING: Running in DEVELOPMENT MODE - no authentication required!",
     c!"⚠️  This server is UNPROTECTED and should not be exposed to networks."] else []) ++
  (if w.sameToken then
    [c!"⚠️  WARNING: Admin token and eval token are the same!",
     c!"⚠️  Consider using different tokens for better security separation."] else []) ++
  (if w.adminInherited then
    [c!"⚠️  WARNING: Admin token inherited from eval token!",
     c!"⚠️  Admin operations use the same token as eval operations."] else []) ++
  (if w.evalInherited then
    [c!"⚠️  WARNING: Eval token inherited from admin token!",
     c!"⚠️  The same token has all privileges (eval and admin)."] else [])

/-- Models `src/bin/sk_http_server.rs:331-347` (`load_js_functions`) and `src/bin/sk_server.rs:445-461`, which is the same: what is printed. -/
def loaded (daemon : Bool) (m : Machine) : List Str :=
  match m.functions with
  | .ok n => if 0 < n ∧ !daemon then [c!"Loaded " ++ Daemon.digits n ++ c!" custom JavaScript function(s)"] else []
  | .error e => if !daemon then [c!"Warning: Failed to load JavaScript functions: " ++ e] else []

/-- Models `src/bin/sk_http_server.rs:349-362` (`start_server`) and `src/bin/sk_server.rs:463-476`, which is the same: the message before the exit, if it fails. -/
def listen (m : Machine) (host : Str) (port : Nat) : Except Str Unit :=
  match m.bind with
  | some e => .error (c!"Error: Failed to bind to " ++ host ++ c!":" ++ Daemon.digits port ++ c!": " ++ e)
  | none =>
    match m.nonblocking with
    | some e => .error (c!"Error: Failed to set non-blocking mode: " ++ e)
    | none => .ok ()

/-- What `src/bin/http_server/daemon.rs:9-51` (`daemonize`) leaves when it fails: the line printed, which reaches the terminal unless the descriptors are closed already,
and the status of the process the user started, which is gone after the first `fork`. -/
def detached : DetachFailure → List Str × Nat
  | .fork1 => ([c!"Failed to daemonize: Failed to fork process"], 1)
  | .setsid => ([c!"Failed to daemonize: Failed to create new session"], 0)
  | .fork2 => ([c!"Failed to daemonize: Failed to fork second time"], 0)
  | .devNull _ => ([], 0)

/-- Models `src/bin/sk_http_server.rs:303-323` (`handle_daemon_mode`), the lines before `daemonize`. -/
def httpDaemonLines (port : Nat) (o : HttpOptions) (auth admin : Option Str) (w : Warnings) : List Str :=
  [c!"Starting Skillet HTTP server as daemon...",
   c!"Port: " ++ Daemon.digits port ++ c!", Host: " ++ o.host ++ c!", Threads: " ++ Daemon.digits o.threads ++ c!", PID file: " ++ o.pidFile] ++
  (if auth.isSome then [c!"Eval token auth: enabled"] else []) ++
  (if admin.isSome then [c!"Admin token auth: enabled"] else []) ++ w.print

/-- Models `src/bin/sk_http_server.rs:364-385` (`print_startup_messages`). -/
def httpStartupLines (port : Nat) (o : HttpOptions) (auth admin : Option Str) (w : Warnings) : List Str :=
  [c!"🚀 Skillet HTTP Server started on http://" ++ o.host ++ c!":" ++ Daemon.digits port,
   c!"🧵 Worker threads: " ++ Daemon.digits o.threads] ++
  (if auth.isSome then [c!"🔒 Eval token auth: enabled"] else []) ++
  (if admin.isSome then [c!"🔐 Admin token auth: enabled"] else []) ++ w.print ++
  [c!"🌐 Ready for HTTP requests", c!"📖 Visit http://" ++ o.host ++ c!":" ++ Daemon.digits port ++ c!" for API documentation", c!""]

/-- Models `src/bin/sk_http_server.rs:113-156` (`main`) on the words after the program name, up to the accept loop. In daemon mode all that follows `daemonize` runs in another
process, without a terminal. -/
def httpMain (m : Machine) : List Str → Start HttpServer
  | [] => ⟨httpUsage, some 1, none⟩
  | p :: words =>
    match parsePort p with
    | none => ⟨[c!"Error: Invalid port number"], some 1, none⟩
    | some port =>
      match httpArgs (httpDefaults m.cpus) words with
      | .error e => ⟨[e], some 1, none⟩
      | .ok o =>
        let (auth, admin) := Http.tokens o.token o.adminToken
        let w := warnings o.token o.adminToken
        let server : HttpServer := ⟨port, o, ⟨auth, admin, m.hooksDir.getD c!"hooks", m.cwd⟩⟩
        if o.daemon then
          let said := httpDaemonLines port o auth admin w
          match m.detach with
          | some f => ⟨said ++ (detached f).1, some (detached f).2, none⟩
          | none =>
            if m.pidFileFails then ⟨said, some 0, none⟩
            else match listen m o.host port with
              | .error _ => ⟨said, some 0, none⟩
              | .ok _ => ⟨said, some 0, some server⟩
        else
          match listen m o.host port with
          | .error e => ⟨loaded false m ++ [e], some 1, none⟩
          | .ok _ => ⟨loaded false m ++ httpStartupLines port o auth admin w, none, some server⟩

/-- Models `src/bin/sk_server.rs:327-348`. -/
def tcpUsage : List Str :=
  [c!"Usage: sk_server <port> [num_threads] [options]", c!"", c!"Options:",
   c!"  -d, --daemon         Run as daemon (background process)",
   c!"  -H, --host <addr>    Bind host/interface (default: 127.0.0.1)",
   c!"  --pid-file <file>    Write PID to file (default: skillet-server.pid)",
   c!"  --log-file <file>    Write logs to file (daemon mode only)",
   c!"  --token <value>      Require token for requests (or set SKILLET_AUTH_TOKEN)",
   c!"", c!"Examples:",
   c!"  sk_server 8080              # Start server on port 8080",
   c!"  sk_server 8080 16           # Start with 16 worker threads",
   c!"  sk_server 8080 8 -d         # Run as daemon with 8 threads",
   c!"  sk_server 8080 --host 0.0.0.0   # Expose on all interfaces",
   c!"  sk_server 8080 --host 0.0.0.0 --token <secret>",
   c!"  sk_server 8080 -d --pid-file /var/run/skillet.pid",
   c!"", c!"Protocol: Send JSON requests as newline-delimited messages",
   c!"Request format: {\"expression\": \"=2+3\", \"variables\": {\"x\": 10}, \"output_json\": true}"]

/-- Models the loop of `src/bin/sk_server.rs:364-415` with what it prints before it exits. -/
def tcpArgs (o : TcpOptions) : List Str → Except Str TcpOptions
  | [] => .ok o
  | w :: rest =>
    if w = c!"-d" ∨ w = c!"--daemon" then tcpArgs { o with daemon := true } rest
    else if w = c!"-H" ∨ w = c!"--host" then
      match rest with
      | v :: rest => tcpArgs { o with host := v } rest
      | [] => .error c!"Error: --host requires an address (e.g. 0.0.0.0)"
    else if w = c!"--pid-file" then
      match rest with
      | v :: rest => tcpArgs { o with pidFile := v } rest
      | [] => .error c!"Error: --pid-file requires a filename"
    else if w = c!"--log-file" then
      match rest with
      | _ :: rest => tcpArgs o rest
      | [] => .error c!"Error: --log-file requires a filename"
    else if w = c!"--token" then
      match rest with
      | v :: rest => tcpArgs { o with token := some v } rest
      | [] => .error c!"Error: --token requires a value"
    else
      match Str.parseUsize w with
      | some n => tcpArgs { o with threads := n } rest
      | none => .error (c!"Error: Unknown argument: " ++ w)

/-- Models `src/bin/sk_server.rs:420-423`. -/
def tcpDaemonLines (port : Nat) (o : TcpOptions) : List Str :=
  [c!"Starting Skillet server as daemon...",
   c!"Port: " ++ Daemon.digits port ++ c!", Threads: " ++ Daemon.digits o.threads ++ c!", PID file: " ++ o.pidFile]

/-- Models `src/bin/sk_server.rs:481-487`. -/
def tcpStartupLines (port : Nat) (o : TcpOptions) : List Str :=
  [c!"🚀 Skillet Server started on " ++ o.host ++ c!":" ++ Daemon.digits port, c!"📊 Worker threads: " ++ Daemon.digits o.threads] ++
  (if o.token.isSome then [c!"🔒 Token auth: enabled"] else []) ++
  [c!"🔧 Ready for high-throughput expression evaluation", c!""]

/-- Models `src/bin/sk_server.rs:324-490` (`main`) up to the accept loop; the pool is made after the messages, and a pool of no threads panics (crate threadpool). -/
def tcpMain (m : Machine) : List Str → Start (Nat × TcpOptions)
  | [] => ⟨tcpUsage, some 1, none⟩
  | p :: words =>
    match parsePort p with
    | none => ⟨[c!"Error: Invalid port number"], some 1, none⟩
    | some port =>
      match tcpArgs (tcpDefaults m.cpus m.envHost m.envToken) words with
      | .error e => ⟨[e], some 1, none⟩
      | .ok o =>
        if o.daemon then
          let said := tcpDaemonLines port o
          match m.detach with
          | some f => ⟨said ++ (detached f).1, some (detached f).2, none⟩
          | none =>
            if m.pidFileFails then ⟨said, some 0, none⟩
            else match listen m o.host port with
              | .error _ => ⟨said, some 0, none⟩
              | .ok _ => ⟨said, some 0, if o.threads = 0 then none else some (port, o)⟩
        else
          match listen m o.host port with
          | .error e => ⟨loaded false m ++ [e], some 1, none⟩
          | .ok _ =>
            let said := loaded false m ++ tcpStartupLines port o
            if o.threads = 0 then ⟨said ++ m.panicText, some 101, none⟩ else ⟨said, none, some (port, o)⟩

end Console
