/- Hex dumps: `base/data/m_str_hexdump.c`. -/
namespace Verif.Hexdump

/-- The flags, `include/mstdlib/base/m_str.h:1871-1880`. -/
structure Opt where
  declen : Bool
  noascii : Bool
  header : Bool
  nolen : Bool
  crlf : Bool
  upper : Bool
  nosects : Bool
deriving DecidableEq, Repr

/-- A digit as `%u`, `%x` and `%X` write it. -/
def digit (upper : Bool) (k : Nat) : UInt8 := UInt8.ofNat (if k < 10 then 48 + k else if upper then 55 + k else 87 + k)

/-- The digits of a number, as `%u`, `%x` and `%X` write them; the fuel is never used up with the number itself as fuel. -/
def digs (b : Nat) : Nat → Nat → List Nat
  | 0, n => [n % b]
  | f + 1, n => if n / b = 0 then [n % b] else digs b f (n / b) ++ [n % b]

/-- `M_snprintf` with `%llu`, `%llx` or `%llX`. -/
def print (b : Nat) (upper : Bool) (n : Nat) : List UInt8 := (digs b n n).map (digit upper)

/-- `base/data/m_buf.c:896-919`, `M_buf_add_uinthex`. -/
def uinthex (n : Nat) (upper : Bool) (width : Nat) : List UInt8 :=
  let s := print 16 upper n
  if width ≠ 0 ∧ s.length > width then [] else List.replicate (width - s.length) 48 ++ s

/-- `base/data/m_buf.c:747-757`, `M_buf_add_uint_just`, with `M_str_justify_max`, `base/data/m_str.c:1851-1866`. -/
def uintJust (n : Nat) (width : Nat) : List UInt8 :=
  let s := print 10 false n
  if width = 0 then [] else if s.length > width then s.drop (s.length - width) else List.replicate (width - s.length) 48 ++ s

/-- `base/data/m_str_hexdump.c:28-40`, `M_str_hexdump_center`; `none` if the differences of sizes wrap, as the function then asks for
about 2^63 fill characters. -/
def center (str : List UInt8) (width : Nat) (pad : UInt8) : Option (List UInt8) :=
  if width < str.length then none
  else
    let lpad := (width - str.length) / 2
    let rpad := width - str.length - lpad
    some (List.replicate lpad pad ++ str ++ List.replicate rpad pad)

/-- `base/data/m_str_hexdump.c:54-66` -/
def lenSize (o : Opt) (n : Nat) : Nat :=
  if o.nolen then 0
  else
    let l := if o.declen then (print 10 false n).length else (print 16 true n).length
    if l < 4 then 4 else l

/-- `base/data/m_str_hexdump.c:80-85` -/
def sepLen (o : Opt) : Nat := if o.nosects then 1 else 2

/-- `base/data/m_str_hexdump.c:71-85`; sizes do not wrap here. -/
def hexSize (o : Opt) (bpl : Nat) : Nat :=
  let h := bpl * 3 - 1
  let h := if h < 3 then 3 else h
  let sects := (bpl + 7) / 8
  let sects := if sects > 0 then sects - 1 else sects
  if o.nosects then h else h + sects

/-- `base/data/m_str_hexdump.c:87-92` -/
def asciiSize (o : Opt) (bpl : Nat) : Nat := if o.noascii then 0 else bpl + 2

/-- `base/data/m_str_hexdump.c:113`, `:130`, `:180` -/
def eol (o : Opt) : List UInt8 := if o.crlf then [13, 10] else [10]

/-- `M_buf_add_fill` with a space. -/
def blanks (n : Nat) : List UInt8 := List.replicate n 32

/-- `base/data/m_str_hexdump.c:98-102`, `:118-121`: the column of the numbers in the header. -/
def lenCol (o : Opt) (str : List UInt8) (len : Nat) (pad : UInt8) : Option (List UInt8) :=
  if o.nolen then some [] else (center str len pad).map fun s => s ++ blanks (sepLen o)

/-- `base/data/m_str_hexdump.c:107-111`, `:125-128`: the last column in the header. -/
def asciiCol (o : Opt) (bpl : Nat) (str : List UInt8) (pad : UInt8) : Option (List UInt8) :=
  if o.noascii then some [] else (center str (asciiSize o bpl) pad).map fun s => blanks (sepLen o) ++ s

/-- `base/data/m_str_hexdump.c:96-113`: the titles. -/
def titles (o : Opt) (bpl : Nat) (pre : List UInt8) (len : Nat) : Option (List UInt8) :=
  (lenCol o (if o.declen then [76, 69, 78] else [65, 68, 68, 82]) len 32).bind fun a =>
  (center [72, 69, 88] (hexSize o bpl) 32).bind fun b =>
  (asciiCol o bpl [65, 83, 67, 73, 73] 32).map fun c => pre ++ a ++ b ++ c ++ eol o

/-- `base/data/m_str_hexdump.c:115-130`: the line below. -/
def ruler (o : Opt) (bpl : Nat) (pre : List UInt8) (len : Nat) : Option (List UInt8) :=
  (lenCol o [] len 61).bind fun a =>
  (center [] (hexSize o bpl) 61).bind fun b =>
  (asciiCol o bpl [] 61).map fun c => pre ++ a ++ b ++ c ++ eol o

/-- `base/data/m_str_hexdump.c:94-131` -/
def head (o : Opt) (bpl : Nat) (pre : List UInt8) (len : Nat) : Option (List UInt8) :=
  if o.header then (titles o bpl pre len).bind fun a => (ruler o bpl pre len).map fun b => a ++ b
  else some []

/-- `base/data/m_str_hexdump.c:140-145`, `:188-192` -/
def number (o : Opt) (len n : Nat) : List UInt8 := if o.declen then uintJust n len else uinthex n o.upper len

/-- `base/data/m_str_hexdump.c:150-165`, one turn. -/
def hexCell (o : Opt) (d : List UInt8) (off i : Nat) : List UInt8 :=
  (if i ≠ 0 then (if i % 8 = 0 then blanks (sepLen o) else blanks 1) else []) ++
  (match d[off + i]? with
   | some b => uinthex b.toNat o.upper 2
   | none => blanks 2)

/-- `base/data/m_str_hexdump.c:170-176`, one turn; `M_chr_isgraph` is `base/data/m_chr.c:46-49`. -/
def asciiCell (d : List UInt8) (off i : Nat) : UInt8 :=
  match d[off + i]? with
  | some b => if (b ≥ 33 ∧ b < 127) ∨ b = 32 then b else 46
  | none => 32

/-- `base/data/m_str_hexdump.c:137-180`: one line. -/
def row (o : Opt) (bpl : Nat) (pre : List UInt8) (len : Nat) (d : List UInt8) (off : Nat) : List UInt8 :=
  pre ++ (if o.nolen then [] else number o len off ++ blanks (sepLen o)) ++
  (List.range bpl).flatMap (hexCell o d off) ++
  (if o.noascii then [] else blanks (sepLen o) ++ [124] ++ (List.range bpl).map (asciiCell d off) ++ [124]) ++ eol o

/-- `base/data/m_str_hexdump.c:133-183`; the fuel is never used up with the length of the data as fuel. -/
def rows (o : Opt) (bpl : Nat) (pre : List UInt8) (len : Nat) (d : List UInt8) : Nat → Nat → List UInt8
  | 0, _ => []
  | f + 1, off => if off < d.length then row o bpl pre len d off ++ rows o bpl pre len d f (off + bpl) else []

/-- `base/data/m_str_hexdump.c:43-196`, `M_str_hexdump`; `none` if sizes wrap in the header.  A prefix that is the null pointer is the
empty one. -/
def hexdump (o : Opt) (bytesPerLine : Nat) (pre d : List UInt8) : Option (List UInt8) :=
  let len := lenSize o d.length
  let bpl := if bytesPerLine = 0 then 16 else bytesPerLine
  (head o bpl pre len).map fun h => h ++ rows o bpl pre len d d.length 0 ++ (if o.nolen then [] else pre ++ number o len d.length)

end Verif.Hexdump
