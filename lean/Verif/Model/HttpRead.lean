import Verif.Model.Http
/-! Reading a request from a socket: `src/bin/http_server/utils.rs:20-120`, and the buffer pool `src/bin/http_server/cache.rs:188-235`.

Bytes come in the order they were sent, but a single `read` may return any non-empty part of what was sent so far. -/

namespace HttpRead

/-! ### The end of the headers and the announced length -/

/-- Models `src/bin/http_server/utils.rs:106-109` (`find_headers_end`). -/
def headersEnd : Bytes → Option Nat
  | [] => none
  | b :: bs => if (b :: bs).take 4 = [13, 10, 13, 10] then some 0 else (headersEnd bs).map (· + 1)

/-- Models the loop of `src/bin/http_server/utils.rs:111-120` (`parse_content_length`). -/
def lengthOf (X : Ext) : List Str → Nat
  | [] => 0
  | line :: rest =>
    if Str.startsWith (X.lower line) c!"content-length:" then
      match (Str.split line c!":")[1]? with
      | some v => (Str.parseUsize (Str.strip v)).getD 0
      | none => lengthOf X rest
    else lengthOf X rest

/-- Models `src/bin/http_server/utils.rs:111-120` (`parse_content_length`). -/
def contentLength (X : Ext) (headers : Str) : Nat := lengthOf X (Str.lines headers)

/-! ### Reading -/

/-- Why a request could not be read. `io` is an error of the socket (a timeout, a reset). -/
inductive ReadErr where
  | io
  | requestTooLarge
  | bodyTooLarge
  | exceeded
  | notUtf8
  deriving DecidableEq, Repr

/-- What the client sends on a connection: the bytes, and whether it then closes its side; if not, a read that finds nothing ends with an error. -/
structure Client where
  bytes : Bytes
  closes : Bool

/-- A schedule: at the `k`-th read, `want k + 1` bytes are there to be read, or what is left if that is less. -/
abbrev Schedule := Nat → Nat

/-- One `stream.read` into a buffer of `cap` bytes: the bytes read. -/
def take1 (want : Schedule) (k cap : Nat) (rest : Bytes) : Bytes := rest.take (min cap (want k + 1))

/-- Models `src/bin/http_server/utils.rs:32` (`MAX_REQUEST_SIZE`). -/
def maxSize : Nat := 1024 * 1024

/-- After the first loop: what has been read, what is left, the number of reads, the announced length and where the body begins. -/
structure Head where
  buf : Bytes
  rest : Bytes
  k : Nat
  length : Nat
  start : Nat
  deriving DecidableEq, Repr

/-- Models `src/bin/http_server/utils.rs:35-68` (the first loop). Every turn reads at least one byte, so `fuel` above the number of bytes is never used up. -/
def readHead (X : Ext) (want : Schedule) (closes : Bool) : Nat → Nat → Bytes → Bytes → Except ReadErr Head
  | 0, _, _, _ => .error .io
  | fuel + 1, k, buf, rest =>
    match rest with
    | [] => if closes then .ok ⟨buf, [], k + 1, 0, 0⟩ else .error .io
    | b :: bs =>
      let got := take1 want k 4096 (b :: bs)
      let buf' := buf ++ got
      let rest' := (b :: bs).drop got.length
      if buf'.length > maxSize then .error .requestTooLarge
      else match headersEnd buf' with
        | some pos =>
          let n := contentLength X (utf8Lossy (buf'.take pos))
          if n > maxSize then .error .bodyTooLarge else .ok ⟨buf', rest', k + 1, n, pos + 4⟩
        | none => readHead X want closes fuel (k + 1) buf' rest'

/-- Models `src/bin/http_server/utils.rs:81-98` (the second loop). `left` is `remaining_bytes - total_read`. -/
def readBody (want : Schedule) (closes : Bool) : Nat → Nat → Nat → Bytes → Bytes → Except ReadErr Bytes
  | 0, _, _, _, _ => .error .io
  | fuel + 1, k, left, buf, rest =>
    if left = 0 then .ok buf
    else match rest with
      | [] => if closes then .ok buf else .error .io
      | b :: bs =>
        let got := take1 want k (min 8192 left) (b :: bs)
        let buf' := buf ++ got
        if buf'.length > maxSize then .error .exceeded
        else readBody want closes fuel (k + 1) (left - got.length) buf' ((b :: bs).drop got.length)

/-- The thread-local buffers, `src/bin/http_server/cache.rs:188-193` (`BufferPool`); capacities are not modelled. -/
abbrev Pool := List Bytes

/-- Models `src/bin/http_server/cache.rs:204-206` (`get_buffer`). -/
def getBuffer : Pool → Bytes × Pool
  | b :: bs => (b, bs)
  | [] => ([], [])

/-- Models `src/bin/http_server/cache.rs:208-218` (`return_buffer`) with the capacity of line 224. -/
def returnBuffer (p : Pool) (_b : Bytes) : Pool := if p.length < 4 then [] :: p else p

/-- Models `src/bin/http_server/utils.rs:20-104` (`read_complete_http_request`), with the pool of the thread afterwards. -/
def readRequest (X : Ext) (want : Schedule) (c : Client) (pool : Pool) : Except ReadErr Str × Pool :=
  let (buf, pool) := getBuffer pool
  match readHead X want c.closes (c.bytes.length + 1) 0 buf c.bytes with
  | .error e => (.error e, pool)
  | .ok h =>
    match readBody want c.closes (h.rest.length + 1) h.k (h.length - (h.buf.length - h.start)) h.buf h.rest with
    | .error e => (.error e, pool)
    | .ok all =>
      (match utf8 all with
        | some s => .ok s
        | none => .error .notUtf8, returnBuffer pool all)

/-- Several connections served by one thread, one after the other. -/
def readAll (X : Ext) : List (Schedule × Client) → Pool → List (Except ReadErr Str) × Pool
  | [], pool => ([], pool)
  | (want, c) :: rest, pool =>
    let (r, pool) := readRequest X want c pool
    let (rs, pool) := readAll X rest pool
    (r :: rs, pool)

/-- Models `src/bin/sk_http_server.rs:30-51`: the connection is answered with an error (status 400, the text tells which) or handed to the router. -/
def serve (X : Ext) (H : Http.HttpExt) (cfg : Http.Config) (want : Schedule) (c : Client) (pool : Pool) (s : Http.Site) : Http.Outcome × Pool :=
  match readRequest X want c pool with
  | (.error _, pool) => (Http.reply s 400, pool)
  | (.ok request, pool) => (Http.handle X H cfg request s, pool)

end HttpRead
