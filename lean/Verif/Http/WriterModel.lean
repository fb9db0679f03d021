import Verif.Http.HeaderModel
import Verif.Textcodec.Model
import Verif.Time.Model
/-! Model of `formats/http/m_http_simple_writer.c`: whole requests and responses.

As in `HeaderModel`, texts are bytes without a zero, and NULL and the empty text are `[]`.  The data is the memory at the
pointer: `none` is NULL.  The headers given are the pairs of a table in the order they are enumerated; NULL is `[]`.  Numbers of
type `size_t` are natural numbers. -/
namespace Verif.Http

/-- The outcome of a writer: undefined behaviour, false, or true with what was added to the buffer. -/
inductive Written
  | ub
  | fail
  | ok (out : List UInt8)
deriving DecidableEq, Repr

/-- `%zu` of `M_snprintf`, and `M_buf_add_int` of numbers that are not negative: the decimal digits. -/
def decimal (n : Nat) : List UInt8 :=
  if n < 10 then [UInt8.ofNat (48 + n)] else decimal (n / 10) ++ [UInt8.ofNat (48 + n % 10)]

/-- `M_buf_add_int`. -/
def intText (i : Int) : List UInt8 := if i < 0 then 45 :: decimal i.natAbs else decimal i.toNat

/-- `base/data/m_buf.c:797-814`, `M_buf_add_int_just` with a width of two.  The numbers are parts of a valid time, so that they
have at most two digits and no sign; other numbers are not modelled. -/
def two (i : Int) : List UInt8 :=
  let t := intText i
  if t.length < 2 then 48 :: t else t

/-- `formats/http/m_http_simple_writer.c:36`. -/
def days : List (List UInt8) := [[83, 117, 110], [77, 111, 110], [84, 117, 101], [87, 101, 100], [84, 104, 117], [70, 114, 105], [83, 97, 116]]
/-- `formats/http/m_http_simple_writer.c:37`. -/
def months : List (List UInt8) := [[74, 97, 110], [70, 101, 98], [77, 97, 114], [65, 112, 114], [77, 97, 121], [74, 117, 110], [74, 117, 108], [65, 117, 103], [83, 101, 112], [79, 99, 116], [78, 111, 118], [68, 101, 99]]
/-- `GMT`. -/
def sGmt : List UInt8 := [71, 77, 84]

/-- `formats/http/m_http_simple_writer.c:32-75`, `M_http_writer_get_date`: the outer `none` is an index outside of a table of
`M_time_togm`, the inner one NULL. -/
def getDate (now : Int) : Option (Option (List UInt8)) :=
  (Time.togm now).map fun tm =>
    if tm.wday < 0 ∨ tm.wday > 6 then none
    else if tm.month ≤ 0 ∨ tm.month > 12 then none
    else some (days.getD tm.wday.toNat [] ++ [44, 32] ++ two tm.day ++ [32] ++ months.getD (tm.month - 1).toNat [] ++ [32] ++ intText tm.year ++ [32] ++
      two tm.hour ++ [58] ++ two tm.min ++ [58] ++ two tm.sec ++ [32] ++ sGmt)

/-- `Host`. -/
def kHost : List UInt8 := [72, 111, 115, 116]
/-- `User-Agent`. -/
def kAgent : List UInt8 := [85, 115, 101, 114, 45, 65, 103, 101, 110, 116]
/-- `Content-Length`. -/
def kLength : List UInt8 := [67, 111, 110, 116, 101, 110, 116, 45, 76, 101, 110, 103, 116, 104]
/-- `Content-Type`. -/
def kType : List UInt8 := [67, 111, 110, 116, 101, 110, 116, 45, 84, 121, 112, 101]
/-- `Transfer-Encoding`. -/
def kEncoding : List UInt8 := [84, 114, 97, 110, 115, 102, 101, 114, 45, 69, 110, 99, 111, 100, 105, 110, 103]
/-- `application/octet-stream`. -/
def vOctets : List UInt8 := [97, 112, 112, 108, 105, 99, 97, 116, 105, 111, 110, 47, 111, 99, 116, 101, 116, 45, 115, 116, 114, 101, 97, 109]
/-- `text/plain`. -/
def vText : List UInt8 := [116, 101, 120, 116, 47, 112, 108, 97, 105, 110]
/-- `charset=`. -/
def vCharset : List UInt8 := [99, 104, 97, 114, 115, 101, 116, 61]

/-- A table with `M_HASH_DICT_MULTI_VALUE`: insertion under a key that exists adds a value. -/
def mput (k v : List UInt8) (t : List (List UInt8 × List (List UInt8))) : List (List UInt8 × List (List UInt8)) :=
  if k = [] then t
  else if t.any (fun e => same e.1 k) then t.map fun e => if same e.1 k then (e.1, e.2 ++ [v]) else e
  else t ++ [(k, [v])]

/-- Its enumeration: a key comes once for each value. -/
def pairs (t : List (List UInt8 × List (List UInt8))) : List (List UInt8 × List UInt8) := t.flatMap fun e => e.2.map fun v => (e.1, v)

/-- `formats/http/m_http_simple_writer.c:78-107`, `M_http_simple_write_request_headers`: `none` is NULL. -/
def requestHeaders (hs : List (List UInt8 × List UInt8)) (host : List UInt8) (port : Nat) (agent : List UInt8) : Option (List (List UInt8 × List UInt8)) :=
  let t := hs.foldl (fun t e => mput e.1 e.2 t) []
  let t := if host ≠ [] then some (mput kHost (if port = 0 ∨ port = 80 then host else host ++ [58] ++ decimal port) (tdel kHost t))
    else if (tget kHost t).isSome then some t
    else none
  t.map fun t => pairs (if agent = [] then t else mput kAgent agent t)

/-- `formats/http/m_http_simple_writer.c:155-163`: the length if no header gives it.  `M_str_isempty` reads the first byte of the
data, `M_str_len` all up to a zero. -/
def dataLength (data : Option (List UInt8)) (len : Nat) (charset : List UInt8) : Option Nat :=
  match data with
  | none => some len
  | some mem =>
    if charset = [] then some len
    else match mem with
      | [] => none
      | c :: _ => if c = 0 then some len else if len = 0 then Str.strlen mem else some len

/-- `formats/http/m_http_simple_writer.c:142-167`: the length of the data.  If the header is there it is compared with the
data, and it must be a number; else the header is set. -/
def writeLength (s : Store) (data : Option (List UInt8)) (len : Nat) (charset : List UInt8) : Option (Option (Nat × Store)) :=
  match dictGet s kLength with
  | some val =>
    let val := val.getD []
    match Num.toInt64Ex (val ++ [0]) val.length 10 with
    | none => none
    | some (.success, some (i, _)) => if i < 0 then some none else if data.isSome ∧ i.toNat ≠ len then some none else some (some (len, s))
    | some _ => some none
  | none =>
    (dataLength data len charset).bind fun len => (setHeader s kLength (decimal len) false).map fun r => some (len, r.2)

/-- `formats/http/m_http_simple_writer.c:169-181`: the type; `given` is whether the table that was passed has one. -/
def writeType (s : Store) (given : Bool) (ctype charset : List UInt8) : Option Store :=
  if ctype ≠ [] then (setHeader s kType ctype false).map (·.2)
  else if given then some s
  else (setHeader s kType (if charset = [] then vOctets else vText) false).map (·.2)

/-- `formats/http/m_http_simple_writer.c:183-203`: the character set; `tempa` has room for 127 bytes. -/
def writeCharset (s : Store) (charset : List UInt8) : Option Store :=
  if charset = [] then some s
  else (addHeader s kType ((getHeader s kType).getD [] ++ [59, 32] ++ (vCharset ++ charset).take 127)).map (·.2)

/-- `formats/http/m_http_simple_writer.c:205-210`: the date. -/
def writeDate (s : Store) (given : Bool) (now : Int) : Option Store :=
  if given then some s
  else (getDate now).bind fun d => (setHeader s sDate (d.getD []) false).map (·.2)

/-- `formats/http/m_http_simple_writer.c:218-235`: the lines of the header. -/
def writeLines (s : Store) : List UInt8 := (headerKeys s).flatMap fun k => k ++ [58, 32] ++ (getHeader s k).getD [] ++ crlf

/-- `formats/http/m_http_simple_writer.c:237-242`: the empty line and the data. -/
def writeBody (s : Store) (data : Option (List UInt8)) (len : Nat) : Written :=
  match data with
  | none => .ok (writeLines s ++ crlf)
  | some mem => if mem.length < len then .ub else .ok (writeLines s ++ crlf ++ mem.take len)

/-- `formats/http/m_http_simple_writer.c:110-254`, `M_http_simple_write_int`. -/
def writeInt (now : Int) (ctype : List UInt8) (hs : List (List UInt8 × List UInt8)) (data : Option (List UInt8)) (len : Nat) (charset : List UInt8) : Written :=
  match setHeaders [] hs false with
  | none => .ub
  | some s =>
    if (data.isSome ∧ len ≠ 0) ∧ (dictGet s kEncoding).isSome then .fail
    else
      match writeLength s data len charset with
      | none => .ub
      | some none => .fail
      | some (some (len, s1)) =>
        match (writeType s1 (dictGet s kType).isSome ctype charset).bind fun s2 => (writeCharset s2 charset).bind fun s3 => writeDate s3 (dictGet s sDate).isSome now with
        | none => .ub
        | some s4 => writeBody s4 data len

/-- `formats/http/m_http.c:246-272`, `M_http_method_to_str`. -/
def methodText (m : Method) : List UInt8 := ((methods.find? fun e => e.2 = m).map (·.1)).getD []

/-- `HTTP/1.1`. -/
def sVersion : List UInt8 := [72, 84, 84, 80, 47, 49, 46, 49]

/-- `formats/http/m_http_simple_writer.c:290-308`: the target of a request. -/
def writeTarget (uri : List UInt8) : Option (Option (List UInt8)) :=
  let uri := if uri = [] then [47] else uri
  if (32 : UInt8) ∈ uri ∨ uri.any (fun c => c ≥ 128) then
    (Textcodec.pctEncode .fail .urlMin uri).map fun r => if r.1 = .success then some r.2 else none
  else some (some uri)

/-- `formats/http/m_http_simple_writer.c:279-328`, `M_http_simple_write_request_buf`: what is added to the buffer; the method
`none` is unknown. -/
def writeRequest (now : Int) (method : Option Method) (host : List UInt8) (port : Nat) (uri agent ctype : List UInt8) (hs : List (List UInt8 × List UInt8))
    (data : Option (List UInt8)) (len : Nat) (charset : List UInt8) : Written :=
  match method with
  | none => .fail
  | some m =>
    match writeTarget uri with
    | none => .ub
    | some none => .fail
    | some (some target) =>
      match requestHeaders hs host port agent with
      | none => .fail
      | some hs =>
        match writeInt now ctype hs data len charset with
        | .ok out => .ok (methodText m ++ [32] ++ target ++ [32] ++ sVersion ++ crlf ++ out)
        | r => r

/-- `formats/http/m_http.c:274-406`, `M_http_code_to_reason`. -/
def reasonText : Nat → List UInt8
  | 100 => [67, 111, 110, 116, 105, 110, 117, 101]
  | 101 => [83, 119, 105, 116, 99, 104, 105, 110, 103, 32, 80, 114, 111, 116, 111, 99, 111, 108, 115]
  | 102 => [80, 114, 111, 99, 101, 115, 115, 105, 110, 103]
  | 103 => [69, 97, 114, 108, 121, 32, 72, 105, 110, 116, 115]
  | 200 => [79, 75]
  | 201 => [67, 114, 101, 97, 116, 101, 100]
  | 202 => [65, 99, 99, 101, 112, 116, 101, 100]
  | 203 => [78, 111, 110, 45, 65, 117, 116, 104, 111, 114, 105, 116, 97, 116, 105, 118, 101, 32, 73, 110, 102, 111, 114, 109, 97, 116, 105, 111, 110]
  | 204 => [78, 111, 32, 67, 111, 110, 116, 101, 110, 116]
  | 205 => [82, 101, 115, 101, 116, 32, 67, 111, 110, 116, 101, 110, 116]
  | 206 => [80, 97, 114, 116, 105, 97, 108, 32, 67, 111, 110, 116, 101, 110, 116]
  | 207 => [77, 117, 108, 116, 105, 45, 83, 116, 97, 116, 117, 115]
  | 208 => [65, 108, 114, 101, 97, 100, 121, 32, 82, 101, 112, 111, 114, 116, 101, 100]
  | 226 => [73, 77, 32, 85, 115, 101, 100]
  | 300 => [77, 117, 108, 116, 105, 112, 108, 101, 32, 67, 104, 111, 105, 99, 101, 115]
  | 301 => [77, 111, 118, 101, 100, 32, 80, 101, 114, 109, 97, 110, 101, 110, 116, 108, 121]
  | 302 => [70, 111, 117, 110, 100]
  | 303 => [83, 101, 101, 32, 79, 116, 104, 101, 114]
  | 304 => [78, 111, 116, 32, 77, 111, 100, 105, 102, 105, 101, 100]
  | 305 => [85, 115, 101, 32, 80, 114, 111, 120, 121]
  | 306 => [83, 119, 105, 116, 99, 104, 32, 80, 114, 111, 120, 121]
  | 307 => [84, 101, 109, 112, 111, 114, 97, 114, 121, 32, 82, 101, 100, 105, 114, 101, 99, 116]
  | 308 => [80, 101, 114, 109, 97, 110, 101, 110, 116, 32, 82, 101, 100, 105, 114, 101, 99, 116]
  | 400 => [66, 97, 100, 32, 82, 101, 113, 117, 101, 115, 116]
  | 401 => [85, 110, 97, 117, 116, 104, 111, 114, 105, 122, 101, 100]
  | 402 => [80, 97, 121, 109, 101, 110, 116, 32, 82, 101, 113, 117, 105, 114, 101, 100]
  | 403 => [70, 111, 114, 98, 105, 100, 100, 101, 110]
  | 404 => [78, 111, 116, 32, 70, 111, 117, 110, 100]
  | 405 => [77, 101, 116, 104, 111, 100, 32, 78, 111, 116, 32, 65, 108, 108, 111, 119, 101, 100]
  | 406 => [78, 111, 116, 32, 65, 99, 99, 101, 112, 116, 97, 98, 108, 101]
  | 407 => [80, 114, 111, 120, 121, 32, 65, 117, 116, 104, 101, 110, 116, 105, 99, 97, 116, 105, 111, 110, 32, 82, 101, 113, 117, 105, 114, 101, 100]
  | 408 => [82, 101, 113, 117, 101, 115, 116, 32, 84, 105, 109, 101, 111, 117, 116]
  | 409 => [67, 111, 110, 102, 108, 105, 99, 116]
  | 410 => [71, 111, 110, 101]
  | 411 => [76, 101, 110, 103, 116, 104, 32, 82, 101, 113, 117, 105, 114, 101, 100]
  | 412 => [80, 114, 101, 99, 111, 110, 100, 105, 116, 105, 111, 110, 32, 70, 97, 105, 108, 101, 100]
  | 413 => [80, 97, 121, 108, 111, 97, 100, 32, 84, 111, 111, 32, 76, 97, 114, 103, 101]
  | 414 => [85, 82, 73, 32, 84, 111, 111, 32, 76, 111, 110, 103]
  | 415 => [85, 110, 115, 117, 112, 112, 111, 114, 116, 101, 100, 32, 77, 101, 100, 105, 97, 32, 84, 121, 112, 101]
  | 416 => [82, 97, 110, 103, 101, 32, 78, 111, 116, 32, 83, 97, 116, 105, 115, 102, 105, 97, 98, 108, 101]
  | 417 => [69, 120, 112, 101, 99, 116, 97, 116, 105, 111, 110, 32, 70, 97, 105, 108, 101, 100]
  | 418 => [73, 39, 109, 32, 97, 32, 116, 101, 97, 112, 111, 116]
  | 421 => [77, 105, 115, 100, 105, 114, 101, 99, 116, 101, 100, 32, 82, 101, 113, 117, 101, 115, 116]
  | 422 => [85, 110, 112, 114, 111, 99, 101, 115, 115, 97, 98, 108, 101, 32, 69, 110, 116, 105, 116, 121]
  | 423 => [76, 111, 99, 107, 101, 100]
  | 424 => [70, 97, 105, 108, 101, 100, 32, 68, 101, 112, 101, 110, 100, 101, 110, 99, 121]
  | 426 => [85, 112, 103, 114, 97, 100, 101, 32, 82, 101, 113, 117, 105, 114, 101, 100]
  | 428 => [80, 114, 101, 99, 111, 110, 100, 105, 116, 105, 111, 110, 32, 82, 101, 113, 117, 105, 114, 101, 100]
  | 429 => [84, 111, 111, 32, 77, 97, 110, 121, 32, 82, 101, 113, 117, 101, 115, 116, 115]
  | 431 => [82, 101, 113, 117, 101, 115, 116, 32, 72, 101, 97, 100, 101, 114, 32, 70, 105, 101, 108, 100, 115, 32, 84, 111, 111, 32, 76, 97, 114, 103, 101]
  | 451 => [85, 110, 97, 118, 97, 105, 108, 97, 98, 108, 101, 32, 70, 111, 114, 32, 76, 101, 103, 97, 108, 32, 82, 101, 97, 115, 111, 110, 115]
  | 500 => [73, 110, 116, 101, 114, 110, 97, 108, 32, 83, 101, 114, 118, 101, 114, 32, 69, 114, 114, 111, 114]
  | 501 => [78, 111, 116, 32, 73, 109, 112, 108, 101, 109, 101, 110, 116, 101, 100]
  | 502 => [66, 97, 100, 32, 71, 97, 116, 101, 119, 97, 121]
  | 503 => [83, 101, 114, 118, 105, 99, 101, 32, 85, 110, 97, 118, 97, 105, 108, 97, 98, 108, 101]
  | 504 => [71, 97, 116, 101, 119, 97, 121, 32, 84, 105, 109, 101, 111, 117, 116]
  | 505 => [72, 84, 84, 80, 32, 86, 101, 114, 115, 105, 111, 110, 32, 78, 111, 116, 32, 83, 117, 112, 112, 111, 114, 116, 101, 100]
  | 506 => [86, 97, 114, 105, 97, 110, 116, 32, 65, 108, 115, 111, 32, 78, 101, 103, 111, 116, 105, 97, 116, 101, 115]
  | 507 => [73, 110, 115, 117, 102, 102, 105, 99, 105, 101, 110, 116, 32, 83, 116, 111, 114, 97, 103, 101]
  | 508 => [76, 111, 111, 112, 32, 68, 101, 116, 101, 99, 116, 101, 100]
  | 510 => [78, 111, 116, 32, 69, 120, 116, 101, 110, 100, 101, 100]
  | 511 => [78, 101, 116, 119, 111, 114, 107, 32, 65, 117, 116, 104, 101, 110, 116, 105, 99, 97, 116, 105, 111, 110, 32, 82, 101, 113, 117, 105, 114, 101, 100]
  | _ => [71, 101, 110, 101, 114, 105, 99]

/-- `formats/http/m_http_simple_writer.c:350-375`, `M_http_simple_write_response_buf`: what is added to the buffer. -/
def writeResponse (now : Int) (code : Nat) (reason ctype : List UInt8) (hs : List (List UInt8 × List UInt8)) (data : Option (List UInt8)) (len : Nat) (charset : List UInt8) : Written :=
  match writeInt now ctype hs data len charset with
  | .ok out => .ok (sVersion ++ [32] ++ decimal code ++ [32] ++ (if reason = [] then reasonText code else reason) ++ crlf ++ out)
  | r => r

end Verif.Http
