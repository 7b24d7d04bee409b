import Verif.Model.Http
import Verif.Model.HttpRead
/-! Managing function files, system call by system call: the workers of the server handle uploads, updates and deletions at the same time, without a lock
(`src/bin/http_server/js_management.rs`), and the process may end between any two calls. The hooks directory is there and the paths, already resolved, are no directories. -/

namespace FileSteps

open Http (Path HttpExt)
open HttpRead (Bytes)

/-- The bytes of a text. -/
def encode (s : Str) : Bytes := s.flatMap String.utf8EncodeChar

/-- Files as the operating system keeps them: a path leads to a file number, a file number to bytes. Numbers from `next` on have not been used. Removing a file
removes the path; who has the file open still writes to the number. -/
structure Disk where
  dir : Path → Option Nat
  data : Nat → Bytes
  next : Nat

/-- What reading the file gives. -/
def Disk.content (d : Disk) (p : Path) : Option Bytes := (d.dir p).map d.data

/-- `write` (operating system) at an offset: bytes there are replaced, a gap before it is filled with zeros. -/
def writeAt (old : Bytes) (k : Nat) (chunk : Bytes) : Bytes :=
  (old ++ List.replicate (k - old.length) 0).take k ++ chunk ++ old.drop (k + chunk.length)

/-- How far a request has come. -/
inductive Phase where
  /-- An upload, before validation: `js_management.rs:266`. -/
  | upload (code : Str)
  /-- An update, before the look whether the file exists: `js_management.rs:84`. -/
  | update (code : Str)
  /-- Validated, before `fs::write` opens the file: `js_management.rs:490`. -/
  | saving (code : Str)
  /-- Inside `fs::write`: the file is open and the first `done` bytes have been written. -/
  | writing (code : Str) (file : Nat) (done : Nat)
  /-- A deletion, before the look whether the file exists: `js_management.rs:503`. -/
  | delete
  /-- A deletion that has seen the file, before `fs::remove_file`: `js_management.rs:508`. -/
  | removing
  /-- The response has been sent, or (`none`) the worker has panicked. -/
  | answered (status : Option Nat)

/-- A request about a file. -/
structure Job where
  path : Path
  phase : Phase

/-- `validate_js_function` before saving: the next phase. Models `src/bin/http_server/js_management.rs:117-118,148-157` and `:266-269,299-308`. -/
def validated (X : Ext) (H : HttpExt) (code : Str) : Phase :=
  match Http.validateJs X H code with
  | .ok _ => .saving code
  | .error (.err ..) => .answered (some 400)
  | .error (.panic _) => .answered none

/-- One system call of a request, at path `p`. `fails`: the call fails. `n`: a `write` takes `n + 1` bytes, or all that are left. Models
`src/bin/http_server/js_management.rs:82-94` (update), `:266` (upload), `:478-494` (`save_js_file`; `fs::write` of the standard library opens the file, truncating or creating it,
and then writes in a loop), `:496-512` (`delete_js_file`). -/
def act (X : Ext) (H : HttpExt) (d : Disk) (p : Path) (n : Nat) (fails : Bool) : Phase → Disk × Phase
  | .upload code => (d, validated X H code)
  | .update code => (d, if (d.dir p).isSome then validated X H code else .answered (some 404))
  | .saving code =>
    if fails then (d, .answered (some 500))
    else match d.dir p with
      | some f => ({ d with data := fun g => if g = f then [] else d.data g }, .writing code f 0)
      | none => (⟨fun q => if q = p then some d.next else d.dir q, fun g => if g = d.next then [] else d.data g, d.next + 1⟩, .writing code d.next 0)
  | .writing code f k =>
    if fails then (d, .answered (some 500))
    else if (encode code).length ≤ k then (d, .answered (some 200))
    else
      let chunk := ((encode code).drop k).take (n + 1)
      ({ d with data := fun g => if g = f then writeAt (d.data f) k chunk else d.data g }, .writing code f (k + chunk.length))
  | .delete => (d, if (d.dir p).isSome then .removing else .answered (some 500))
  | .removing =>
    if fails then (d, .answered (some 500))
    else match d.dir p with
      | some _ => ({ d with dir := fun q => if q = p then none else d.dir q }, .answered (some 200))
      | none => (d, .answered (some 500))
  | .answered s => (d, .answered s)

/-- The disk and the requests so far. -/
structure World where
  disk : Disk
  jobs : List Job

/-- What a request asks for. -/
inductive Wish where
  | upload (code : Str)
  | update (code : Str)
  | delete

/-- Where the handling begins. -/
def Wish.phase : Wish → Phase
  | .upload c => .upload c
  | .update c => .update c
  | .delete => .delete

/-- What happens: a request arrives, or the `i`-th request goes on by one system call. -/
inductive Event where
  | request (p : Path) (w : Wish)
  | go (i : Nat) (n : Nat) (fails : Bool)

/-- One event. -/
def World.step (X : Ext) (H : HttpExt) (w : World) : Event → World
  | .request p q => { w with jobs := w.jobs ++ [⟨p, q.phase⟩] }
  | .go i n fails =>
    match w.jobs[i]? with
    | none => w
    | some j => ⟨(act X H w.disk j.path n fails j.phase).1, w.jobs.set i ⟨j.path, (act X H w.disk j.path n fails j.phase).2⟩⟩

/-- A history, oldest event first. A crash is the end of a history. -/
def World.run (X : Ext) (H : HttpExt) (w : World) (h : List Event) : World := h.foldl (World.step X H) w

/-- The function a restart or a reload finds in a file: it must be UTF-8 with a name. Models `src/js_plugin.rs:44-49` (`from_file`). -/
def loaded (d : Disk) (p : Path) : Option Http.JsFunction :=
  match (d.content p).bind HttpRead.utf8 with
  | some code => (Http.parseJs code).toOption
  | none => none

end FileSteps
