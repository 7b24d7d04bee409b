import Verif.Model.HttpRead
/-! The bytes of a response: `src/bin/http_server/utils.rs:122-167`.

Not modelled: `write_all` failing half way (the error is ignored), the texts of the bodies. -/

namespace HttpWrite

/-- The bytes of a text (core library). -/
def encode (s : Str) : HttpRead.Bytes := s.flatMap String.utf8EncodeChar

/-- Models `src/bin/http_server/utils.rs:123-132`. -/
def statusText (status : Nat) : Str :=
  if status = 200 then c!"OK"
  else if status = 400 then c!"Bad Request"
  else if status = 401 then c!"Unauthorized"
  else if status = 408 then c!"Request Timeout"
  else if status = 413 then c!"Payload Too Large"
  else if status = 404 then c!"Not Found"
  else if status = 500 then c!"Internal Server Error"
  else c!"Unknown"

/-- `{}` of a number (core library). -/
def number (n : Nat) : Str := Nat.toDigits 10 n

/-- Models `src/bin/http_server/utils.rs:122-148` (`send_http_response`): the bytes written. -/
def response (status : Nat) (contentType body : Str) : HttpRead.Bytes :=
  encode (c!"HTTP/1.1 " ++ number status ++ c!" " ++ statusText status ++ c!"\r\n" ++
    c!"Access-Control-Allow-Origin: *\r\n" ++
    c!"Access-Control-Allow-Methods: GET, POST, PUT, DELETE, OPTIONS\r\n" ++
    c!"Access-Control-Allow-Headers: Content-Type, Authorization\r\n" ++
    c!"Content-Type: " ++ contentType ++ c!"\r\n" ++
    c!"Content-Length: " ++ number (encode body).length ++ c!"\r\n" ++
    c!"Connection: close\r\n" ++
    c!"\r\n" ++
    body)

/-- Models `src/bin/http_server/utils.rs:158-166` (`handle_cors_preflight`). -/
def preflight : HttpRead.Bytes :=
  encode (c!"HTTP/1.1 200 OK\r\n" ++
    c!"Access-Control-Allow-Origin: *\r\n" ++
    c!"Access-Control-Allow-Methods: GET, POST, PUT, DELETE, OPTIONS\r\n" ++
    c!"Access-Control-Allow-Headers: Content-Type, Authorization\r\n" ++
    c!"Content-Length: 0\r\n" ++
    c!"\r\n")

end HttpWrite
