/-! Model of formatted output, `base/data/m_str_fmt.c`.

`none` is undefined behaviour: an access outside of a buffer, an argument that is not there or has another type.  The platform is LP64 with
signed `char`.  The lengths of the output are unbounded integers here (`ssize_t` there).  The digits of a `double` are made with floating
point arithmetic and are not modelled: an argument is the text of its absolute value for each precision.  The format is read through a parser
(`Verif.Parser`); here it is the list of bytes that remain. -/
namespace Verif.StrFmt

/-- `base/data/m_str_fmt.c:43-87`, `M_str_fmt_t`: where the output goes.

* `sbuf`: a string of `len` bytes; `buf` is the memory there (`none`: `NULL`)
* `mbuf`: an `M_buf_t`, as the bytes in it (C30 is about `M_buf_add_bytes`)
* `fd`: a file descriptor; what is in `write_buf`, what the system has taken, and how many bytes each call of `write` takes at most
* `stream`: `FILE` or `M_fs_file_t`; what it has taken, and which calls fail (taking nothing, a simplification) -/
inductive Sink
  | sbuf (buf : Option (List UInt8)) (pos len : Nat)
  | mbuf (buf : Option (List UInt8))
  | fd (env : Nat → Nat) (calls : Nat) (wb out : List UInt8)
  | stream (env : Nat → Bool) (calls : Nat) (out : List UInt8)

/-- `M_mem_copy` to index `i`. -/
def wr (d : List UInt8) (i : Nat) (bs : List UInt8) : Option (List UInt8) :=
  if i + bs.length ≤ d.length then some (d.take i ++ bs ++ d.drop (i + bs.length)) else none

/-- `base/data/m_str_fmt.c:242-248`: pieces of 512 bytes are written while more than that is left; the number of calls, what was taken, what is
left, or nothing if a call did not take all. -/
def fdLoop (env : Nat → Nat) : Nat → Nat → List UInt8 → List UInt8 → Nat × List UInt8 × Option (List UInt8)
  | 0, calls, out, b => (calls, out, some b)
  | f + 1, calls, out, b =>
    if b.length > 512 then
      if env calls < 512 then (calls + 1, out ++ b.take (env calls), none)
      else fdLoop env f (calls + 1) (out ++ b.take 512) (b.drop 512)
    else (calls, out, some b)

/-- `base/data/m_str_fmt.c:214-278`, `M_str_fmt_add_bytes`. -/
def addBytes (data : Sink) (b : List UInt8) : Option (Sink × Int) :=
  if b.length = 0 then some (data, 0)
  else
    match data with
    | .stream env calls out =>
      if env calls then some (.stream env (calls + 1) (out ++ b), b.length) else some (.stream env (calls + 1) out, -1)
    | .fd env calls wb out =>
      if wb.length + b.length ≥ 512 then
        if env calls < wb.length then some (.fd env (calls + 1) wb (out ++ wb.take (env calls)), -1)
        else
          match fdLoop env b.length (calls + 1) (out ++ wb) b with
          | (calls, out, none) => some (.fd env calls [] out, -1)
          | (calls, out, some b') => if b'.length > 512 then none else some (.fd env calls b' out, b.length)
      else some (.fd env calls (wb ++ b) out, b.length)
    | .sbuf none pos len => some (.sbuf none pos len, b.length)
    | .sbuf (some m) pos len =>
      if len = 0 then some (.sbuf (some m) pos len, b.length)
      else
        let tlen := if b.length > len - pos - 1 then len - pos - 1 else b.length
        if tlen = 0 then some (.sbuf (some m) pos len, b.length)
        else (wr m pos (b.take tlen)).map fun m => (.sbuf (some m) (pos + tlen) len, b.length)
    | .mbuf none => some (.mbuf none, b.length)
    | .mbuf (some m) => some (.mbuf (some (m ++ b)), b.length)

/-- `base/data/m_str_fmt.c:185-212`, `M_str_fmt_flush_buffers`. -/
def flush (data : Sink) : Option (Sink × Bool) :=
  match data with
  | .fd env calls wb out =>
    if wb.length = 0 then some (.fd env calls wb out, true)
    else if env calls < wb.length then some (.fd env (calls + 1) wb (out ++ wb.take (env calls)), false)
    else some (.fd env (calls + 1) wb (out ++ wb), true)
  | .sbuf none pos len => some (.sbuf none pos len, true)
  | .sbuf (some m) pos len => if len = 0 then some (.sbuf (some m) pos len, true) else (wr m pos [0]).map fun m => (.sbuf (some m) pos len, true)
  | s => some (s, true)

/-- `base/data/m_str_fmt.c:280-283`, `M_str_fmt_add_byte`. -/
def addByte (data : Sink) (b : UInt8) : Option (Sink × Int) := addBytes data [b]

/-- `base/data/m_str_fmt.c:289-293`, the loop of `M_str_fmt_add_fill`: whether all were added. -/
def fillLoop (b : UInt8) : Nat → Sink → Option (Sink × Bool)
  | 0, data => some (data, true)
  | n + 1, data => (addByte data b).bind fun r => if r.2 ≠ 1 then some (r.1, false) else fillLoop b n r.1

/-- `base/data/m_str_fmt.c:285-296`, `M_str_fmt_add_fill`. -/
def addFill (data : Sink) (b : UInt8) (len : Nat) : Option (Sink × Int) :=
  (fillLoop b len data).map fun r => (r.1, if r.2 then (len : Int) else -1)

/-- `base/data/m_str_fmt.c:298-328`, `M_str_fmt_add_bytes_just`; `bytes` are the `len` bytes (`none`: `NULL`). -/
def addJust (data : Sink) (bytes : Option (List UInt8)) (padChar : UInt8) (padLen : Nat) (ljust : Bool) : Option (Sink × Int) :=
  let bytes := match bytes with | none => [60, 78, 85, 76, 76, 62] | some b => b
  let padLen := if bytes.length ≥ padLen then 0 else padLen - bytes.length
  (if padLen > 0 ∧ ljust = false then addFill data padChar padLen else some (data, (padLen : Int))).bind fun r =>
  if r.2 ≠ (padLen : Int) then some (r.1, -1)
  else
    (addBytes r.1 bytes).bind fun r =>
    if r.2 ≠ (bytes.length : Int) then some (r.1, -1)
    else
      (if padLen > 0 ∧ ljust = true then addFill r.1 padChar padLen else some (r.1, (padLen : Int))).map fun r =>
      if r.2 ≠ (padLen : Int) then (r.1, -1) else (r.1, ((bytes.length + padLen : Nat) : Int))

/-- `base/data/m_str_fmt.c:62-66`, `M_str_fmt_sign_type_t`. -/
inductive Sign | neg | negpos | posspace
deriving DecidableEq

/-- `base/data/m_str_fmt.c:333-363`, `M_str_fmt_add_sign`; `bytes` is the text in an array of `cap` bytes: the array, the width and
the result. -/
def addSign (cap : Nat) (data : Sink) (bytes : List UInt8) (pos : Bool) (st : Sign) (padChar : UInt8) (padLen : Nat) :
    Option (Sink × List UInt8 × Nat × Int) :=
  if pos = true ∧ st = .neg then some (data, bytes, padLen, 0)
  else
    let sign : UInt8 := if pos = false then 45 else match st with | .neg => 45 | .negpos => 43 | .posspace => 32
    if padChar = 48 then (addByte data sign).map fun r => (r.1, bytes, padLen - min padLen 1, r.2)
    else if bytes.length + 2 ≤ cap then some (data, sign :: bytes, padLen, 0)
    else none

/-- `base/data/m_str_fmt.c:373-386`, the prefix. -/
def prefixOf (bytes : List UInt8) (base : Nat) (upper : Bool) : List UInt8 :=
  if base = 8 then if bytes.head? ≠ some 48 then [48] else []
  else if base = 16 then if upper then [48, 88] else [48, 120]
  else []

/-- `base/data/m_str_fmt.c:368-400`, `M_str_fmt_add_prefix`. -/
def addPrefix (cap : Nat) (data : Sink) (bytes : List UInt8) (base : Nat) (upper : Bool) (padChar : UInt8) (padLen : Nat) :
    Option (Sink × List UInt8 × Nat × Int) :=
  let pre := prefixOf bytes base upper
  if pre = [] then some (data, bytes, padLen, 0)
  else if padChar = 48 then (addJust data (some pre) 0 0 false).map fun r => (r.1, bytes, padLen - min padLen pre.length, r.2)
  else if pre.length + bytes.length + 1 ≤ cap then some (data, pre ++ bytes, padLen, 0)
  else none

/-- `base/data/m_str_fmt.c:105-109`, the loop of `M_str_fmt_reverse_bytes`; `len` is one less than the length. -/
def revLoop (len : Nat) : Nat → List UInt8 → Option (List UInt8)
  | 0, bs => some bs
  | i + 1, bs =>
    if i < bs.length ∧ len - i < bs.length then revLoop len i ((bs.set i bs[len - i]!).set (len - i) bs[i]!)
    else none

/-- `base/data/m_str_fmt.c:95-110`, `M_str_fmt_reverse_bytes`. -/
def reverseBytes (bs : List UInt8) : Option (List UInt8) := if bs.length = 0 then some bs else revLoop (bs.length - 1) (bs.length / 2) bs

/-- `base/data/m_str_fmt.c:123-127`, `base_chars`. -/
def baseChars (upper : Bool) : List UInt8 :=
  if upper then [48, 49, 50, 51, 52, 53, 54, 55, 56, 57, 65, 66, 67, 68, 69, 70] else [48, 49, 50, 51, 52, 53, 54, 55, 56, 57, 97, 98, 99, 100, 101, 102]

/-- `base/data/m_str_fmt.c:130-134`, the loop of `M_str_fmt_integer_to_str`, with room for `f + 1` digits. -/
def digitLoop (base : Nat) (chars : List UInt8) : Nat → Nat → List UInt8
  | 0, val => [chars[val % base]!]
  | f + 1, val => chars[val % base]! :: if val / base > 0 then digitLoop base chars f (val / base) else []

/-- `base/data/m_str_fmt.c:112-140`, `M_str_fmt_integer_to_str`, into an array of `len > 1` bytes. -/
def integerToStr (val base : Nat) (upper : Bool) (len : Nat) : Option (List UInt8) := reverseBytes (digitLoop base (baseChars upper) (len - 2) val)

/-- `base/data/m_str_fmt.c:402-426`, `M_str_fmt_add_integer_just`. -/
def addIntegerJust (data : Sink) (val base : Nat) (pos : Bool) (st : Sign) (pre upper : Bool) (padChar : UInt8) (padLen : Nat) (ljust : Bool) :
    Option (Sink × Int) :=
  if base = 0 ∨ base > 16 then some (data, -1)
  else
    (integerToStr val base upper 32).bind fun bytes =>
    (addSign 32 data bytes pos st padChar padLen).bind fun r1 =>
    (if pre then addPrefix 32 r1.1 r1.2.1 base upper padChar r1.2.2.1 else some (r1.1, r1.2.1, r1.2.2.1, 0)).bind fun r2 =>
    (addJust r2.1 (some r2.2.1) padChar r2.2.2.1 ljust).map fun r3 => (r3.1, r1.2.2.2 + r2.2.2.2 + r3.2)

/-- A `double`: whether it is not negative, and the text of its absolute value for a precision, as `base/data/m_str_fmt.c:453-520` makes it. -/
structure Dbl where
  pos : Bool
  text : Nat → List UInt8

/-- `base/data/m_str_fmt.c:428-527`, `M_str_fmt_add_double_just`. -/
def addDoubleJust (data : Sink) (d : Dbl) (st : Sign) (prec : Nat) (padChar : UInt8) (padLen : Nat) (ljust : Bool) : Option (Sink × Int) :=
  let prec := if prec > 100 then 100 else prec
  (addSign 512 data (d.text prec) d.pos st padChar padLen).bind fun r1 =>
  (addJust r1.1 (some r1.2.1) padChar r1.2.2.1 ljust).map fun r2 => (r2.1, r1.2.2.2 + r2.2)

/-- An argument: `int` (and what is promoted to it), an integer of 64 bits, a pointer to the bytes of an object, a `double`. -/
inductive Arg
  | i (v : BitVec 32)
  | l (v : BitVec 64)
  | s (mem : Option (List UInt8))
  | d (x : Dbl)

/-- `base/data/m_str_fmt.c:51-60`, `M_str_fmt_data_type_t`. -/
inductive DT | int | short | char | long | longlong | double | sizet | voidp
deriving DecidableEq

/-- `base/data/m_str_fmt.c:533-565`, `M_str_fmt_get_signed_integer`. -/
def getSigned (t : DT) (ap : List Arg) : Option (Int × List Arg) :=
  match t, ap with
  | .int, .i v :: ap => some (v.toInt, ap)
  | .short, .i v :: ap => some ((v.truncate 16).toInt, ap)
  | .char, .i v :: ap => some ((v.truncate 8).toInt, ap)
  | .long, .l v :: ap => some (v.toInt, ap)
  | .longlong, .l v :: ap => some (v.toInt, ap)
  | .sizet, .l v :: ap => some (v.toInt, ap)
  | .voidp, .l v :: ap => some (v.toInt, ap)
  | .double, ap => some (0, ap)
  | _, _ => none

/-- `base/data/m_str_fmt.c:567-599`, `M_str_fmt_get_unsigned_integer`. -/
def getUnsigned (t : DT) (ap : List Arg) : Option (Nat × List Arg) :=
  match t, ap with
  | .int, .i v :: ap => some (v.toNat, ap)
  | .short, .i v :: ap => some ((v.truncate 16).toNat, ap)
  | .char, .i v :: ap => some ((v.truncate 8).toNat, ap)
  | .long, .l v :: ap => some (v.toNat, ap)
  | .longlong, .l v :: ap => some (v.toNat, ap)
  | .sizet, .l v :: ap => some (v.toNat, ap)
  | .voidp, .l v :: ap => some (v.toNat, ap)
  | .double, ap => some (0, ap)
  | _, _ => none

/-- `base/data/m_str.c:364-369`, `M_str_len` of a string that is not `NULL`. -/
def strLen (mem : List UInt8) : Option Nat := if 0 ∈ mem then some (mem.idxOf 0) else none

/-- `base/data/m_str.c:371-386`, `M_str_len_max` of a string that is not `NULL`. -/
def strLenMax (mem : List UInt8) (max : Nat) : Option Nat :=
  if max = 0 then some 0
  else if max = 2 ^ 64 - 1 then strLen mem
  else if 0 ∈ mem.take max then some ((mem.take max).idxOf 0)
  else if max ≤ mem.length then some max
  else none

/-- What the characters of a directive have said so far, `base/data/m_str_fmt.c:644-658`. -/
structure Ctl where
  pre : Bool := false
  ljust : Bool := false
  sign : Sign := .neg
  haveLen : Bool := false
  padChar : UInt8 := 32
  padLen : Nat := 0
  inputLen : Nat := 0
  dt : DT := .int

/-- `base/data/m_str_fmt.c:625-638`, `M_str_fmt_handle_control_check_byte`. -/
def checkByte (p : List UInt8) (c : UInt8) : List UInt8 × Bool :=
  match p with
  | [] => ([], false)
  | b :: p => if b = c then (p, true) else (b :: p, false)

/-- `base/data/m_str_fmt.c:681-706`, the flags. -/
def flagLoop : Nat → List UInt8 → Ctl → Option (List UInt8 × Ctl)
  | 0, _, _ => none
  | f + 1, p, c =>
    match p with
    | [] => some (p, c)
    | b :: _ =>
      if b = 45 ∨ b = 43 ∨ b = 35 ∨ b = 48 ∨ b = 32 then
        let (p, r) := checkByte p 45
        let c := if r then { c with padChar := 32, ljust := true } else c
        let (p, r) := checkByte p 43
        let c := if r then { c with sign := .negpos } else c
        let (p, r) := checkByte p 32
        let c := if r = true ∧ c.sign ≠ .negpos then { c with sign := .posspace } else c
        let (p, r) := checkByte p 35
        let c := if r then { c with pre := true } else c
        let (p, r) := checkByte p 48
        let c := if r = true ∧ c.ljust = false then { c with padChar := 48 } else c
        flagLoop f p c
      else some (p, c)

/-- What is left to be read, the arguments that are left, and the result. -/
abbrev Out := Sink × List UInt8 × List Arg × Int

/-- `base/data/m_str_fmt.c:888-894`, `parse_error`, and what follows; `start` is the length of what was to be read after the `%`. -/
def parseError (data : Sink) (start : Nat) (p : List UInt8) (ap : List Arg) : Option Out :=
  (addByte data 37).bind fun r =>
  if r.2 = -1 then some (r.1, p, ap, -1)
  else (addFill r.1 63 (start - p.length)).map fun r2 => (r2.1, p, ap, r.2 + r2.2)

/-- `base/data/m_str_fmt.c:898-907`, `done`. -/
def done (start : Nat) (p : List UInt8) (ap : List Arg) (r : Sink × Int) : Option Out :=
  if r.2 = -2 then parseError r.1 start p ap else some (r.1, p, ap, r.2)

/-- `base/data/m_str_fmt.c:708-896`, the rest of a directive. -/
def ctlLoop (data : Sink) (start : Nat) : List UInt8 → Ctl → List Arg → Option Out
  | [], _, ap => parseError data start [] ap
  | b :: p, c, ap =>
    if b = 46 then
      if c.haveLen then parseError data start p ap else ctlLoop data start p { c with haveLen := true } ap
    else if 48 ≤ b ∧ b ≤ 57 then
      if c.haveLen then ctlLoop data start p { c with inputLen := (c.inputLen * 10 + (b - 48).toNat) % 2 ^ 64 } ap
      else ctlLoop data start p { c with padLen := (c.padLen * 10 + (b - 48).toNat) % 2 ^ 64 } ap
    else if b = 42 then
      match ap with
      | .i v :: ap =>
        if v.toInt > 0 then
          if c.haveLen then ctlLoop data start p { c with inputLen := v.toInt.toNat } ap
          else ctlLoop data start p { c with padLen := v.toInt.toNat } ap
        else ctlLoop data start p c ap
      | _ => none
    else if b = 104 then
      if c.dt = .int then ctlLoop data start p { c with dt := .short } ap
      else if c.dt = .short then ctlLoop data start p { c with dt := .char } ap
      else parseError data start p ap
    else if b = 108 then
      if c.dt = .int then ctlLoop data start p { c with dt := .long } ap
      else if c.dt = .long then ctlLoop data start p { c with dt := .longlong } ap
      else parseError data start p ap
    else if b = 73 then
      if c.dt ≠ .int then parseError data start p ap
      else if 2 ≤ p.length then
        if p.take 2 = [54, 52] then ctlLoop data start (p.drop 2) { c with dt := .longlong } ap
        else if p.take 2 = [51, 50] then ctlLoop data start (p.drop 2) c ap
        else ctlLoop data start p c ap
      else ctlLoop data start p { c with dt := .sizet } ap
    else if b = 122 then
      if c.dt ≠ .int then parseError data start p ap else ctlLoop data start p { c with dt := .sizet } ap
    else if b = 100 ∨ b = 105 then
      (getSigned c.dt ap).bind fun a =>
      (addIntegerJust data a.1.natAbs 10 (decide (¬ a.1 < 0)) c.sign false false c.padChar c.padLen c.ljust).bind (done start p a.2)
    else if b = 111 ∨ b = 79 then
      (getUnsigned c.dt ap).bind fun a =>
      (addIntegerJust data a.1 8 true .neg c.pre (decide (b = 79)) c.padChar c.padLen c.ljust).bind (done start p a.2)
    else if b = 117 then
      (getUnsigned c.dt ap).bind fun a =>
      (addIntegerJust data a.1 10 true .neg false false c.padChar c.padLen c.ljust).bind (done start p a.2)
    else if b = 120 ∨ b = 88 then
      (getUnsigned c.dt ap).bind fun a =>
      (addIntegerJust data a.1 16 true .neg c.pre (decide (b = 88)) c.padChar c.padLen c.ljust).bind (done start p a.2)
    else if b = 112 ∨ b = 80 then
      (getUnsigned .voidp ap).bind fun a =>
      (addIntegerJust data a.1 16 true .neg true (decide (b = 80)) c.padChar c.padLen c.ljust).bind (done start p a.2)
    else if b = 101 ∨ b = 69 ∨ b = 102 ∨ b = 70 ∨ b = 103 ∨ b = 71 then
      match ap with
      | .d x :: ap => (addDoubleJust data x c.sign (if c.haveLen then c.inputLen else 6) c.padChar c.padLen c.ljust).bind (done start p ap)
      | _ => none
    else if b = 99 then
      match ap with
      | .i v :: ap => (addJust data (some [UInt8.ofBitVec (v.truncate 8)]) c.padChar c.padLen c.ljust).bind (done start p ap)
      | _ => none
    else if b = 115 then
      match ap with
      | .s none :: ap => (addJust data none 32 c.padLen c.ljust).bind (done start p ap)
      | .s (some m) :: ap =>
        (if c.haveLen then strLenMax m c.inputLen else strLen m).bind fun n =>
        (addJust data (some (m.take n)) 32 c.padLen c.ljust).bind (done start p ap)
      | _ => none
    else parseError data start p ap
termination_by p => p.length
decreasing_by all_goals (simp only [List.length_cons, List.length_drop]; omega)

/-- `base/data/m_str_fmt.c:640-908`, `M_str_fmt_handle_control`. -/
def handleControl (data : Sink) (p : List UInt8) (ap : List Arg) : Option Out :=
  match p with
  | [] => parseError data 0 [] ap
  | b :: p' =>
    if b = 37 then (addByte data b).map fun r => (r.1, p', ap, r.2)
    else (flagLoop (p.length + 1) p {}).bind fun r => ctlLoop data p.length r.1 r.2 ap

/-- `base/data/m_str_fmt.c:953-971`, the loop of `M_str_fmt_do_print`: whether all went well, and the length. -/
def printLoop : Nat → Sink → List UInt8 → List Arg → Int → Option (Sink × Bool × Int)
  | 0, _, _, _, _ => none
  | f + 1, data, p, ap, outlen =>
    match p with
    | [] => some (data, true, outlen)
    | b :: p =>
      (if b = 37 then handleControl data p ap else (addByte data b).map fun r => (r.1, p, ap, r.2)).bind fun r =>
      if r.2.2.2 = -1 then some (r.1, false, -1) else printLoop f r.1 r.2.1 r.2.2.1 (outlen + r.2.2.2)

/-- `base/data/m_str_fmt.c:910-982`, `M_str_fmt_do_print`. -/
def doPrint (data : Sink) (fmt : List UInt8) (ap : List Arg) : Option (Sink × Int) :=
  (printLoop (fmt.length + 1) data fmt ap 0).bind fun r =>
  if r.2.1 then (flush r.1).map fun s => (s.1, if s.2 then r.2.2 else -1) else some (r.1, -1)

/-- `base/data/m_str_fmt.c:1108-1124`, `M_vsnprintf` of `size` bytes at `str`: what is there, and the result. -/
def snprintf (str : Option (List UInt8)) (size : Nat) (fmt : List UInt8) (ap : List Arg) : Option (Option (List UInt8) × Nat) :=
  (doPrint (.sbuf str 0 size) fmt ap).bind fun r =>
  match r.1 with
  | .sbuf m _ _ => some (m, if r.2 < 0 then 0 else r.2.toNat)
  | _ => none

/-- `base/data/m_str_fmt.c:1171-1183`, `M_vbprintf`: what is in the buffer, and the result. -/
def bprintf (buf : List UInt8) (fmt : List UInt8) (ap : List Arg) : Option (List UInt8 × Nat) :=
  (doPrint (.mbuf (some buf)) fmt ap).bind fun r =>
  match r.1 with
  | .mbuf (some b) => some (b, if r.2 < 0 then 0 else r.2.toNat)
  | _ => none

/-- `base/data/m_str_fmt.c:1140-1155`, `M_vasprintf`: the string and its length. -/
def asprintf (fmt : List UInt8) (ap : List Arg) : Option (List UInt8 × Nat) := (bprintf [] fmt ap).map fun r => (r.1, r.1.length)

/-- `base/data/m_str_fmt.c:1052-1066`, `M_vdprintf`: what was written to the file, and the result. -/
def dprintf (env : Nat → Nat) (fmt : List UInt8) (ap : List Arg) : Option (List UInt8 × Int) :=
  (doPrint (.fd env 0 [] []) fmt ap).bind fun r =>
  match r.1 with
  | .fd _ _ _ out => some (out, r.2)
  | _ => none

/-- `base/data/m_str_fmt.c:988-1001`, `M_vfprintf`, and `base/data/m_str_fmt.c:1020-1033`, `M_vmdprintf`. -/
def fprintf (env : Nat → Bool) (fmt : List UInt8) (ap : List Arg) : Option (List UInt8 × Int) :=
  (doPrint (.stream env 0 []) fmt ap).bind fun r =>
  match r.1 with
  | .stream _ _ out => some (out, r.2)
  | _ => none

end Verif.StrFmt
