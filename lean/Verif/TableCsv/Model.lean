import Verif.Csv.Model
import Verif.Table.Model

/-!
# Tables as CSV

Model of formats/table/m_table_csv.c on top of the models of CSV (`Verif.Csv`) and of tables (`Verif.Table`).

A missing name is the same as an empty one for a table, as in `Verif.Table`.  Null tables are not modelled, and memory is
always there.
-/

namespace Verif.TableCsv
open Verif Verif.Table

/-- The loop that finds how much quoting is needed (base/data/m_buf.c:1166-1178): 0 for none, 1 for quotes around the text, 2
for quotes and doubled quotes in it.  Simplified: the escape character is the quote. -/
def level (quote : UInt8) (req : List UInt8) : Nat → List UInt8 → Nat
  | l, [] => l
  | l, c :: s =>
    if c = quote then 2
    else level quote req (if l = 0 ∧ c ∈ req.takeWhile (· ≠ 0) then 1 else l) s

/-- The loop that writes with doubled quotes (base/data/m_buf.c:1187-1192). -/
def escape (quote : UInt8) : List UInt8 → List UInt8
  | [] => []
  | c :: s => (if c = quote then [quote] else []) ++ c :: escape quote s

/-- `M_buf_add_str_quoted` (base/data/m_buf.c:1155-1199) as it is called in formats/table/m_table_csv.c:118 and
formats/table/m_table_csv.c:129. -/
def quoted (delim quote : UInt8) : Option Bytes → List UInt8
  | none => []
  | some s =>
    let l := level quote [delim, quote, 13, 10] 0 s
    let q := if l ≠ 0 then [quote] else []
    q ++ (if l < 2 then s else escape quote s) ++ q

/-- One line (formats/table/m_table_csv.c:116-123 and formats/table/m_table_csv.c:127-134) added to a buffer.  Shortening an
empty buffer does nothing, as the wrapped length is not smaller. -/
def addLine (delim quote : UInt8) (buf : List UInt8) (cells : List (Option Bytes)) : List UInt8 :=
  (buf ++ cells.flatMap fun c => quoted delim quote c ++ [delim]).dropLast ++ [13, 10]

/-- `M_table_write_csv` (formats/table/m_table_csv.c:97-141). -/
def writeCsv (t : Tbl) (delim quote : UInt8) (header : Bool) : List UInt8 :=
  let b0 := if header then addLine delim quote [] ((List.range t.cols.length).map (colName t)) else []
  let b := (List.range t.rows.length).foldl
    (fun b i => addLine delim quote b ((List.range t.cols.length).map (cellAt t i))) b0
  b.take (b.length - 2)

/-- The loop over the header (formats/table/m_table_csv.c:58-63). -/
def loadCols : List (Option Bytes) → Tbl → Option Tbl
  | [], t => some t
  | n :: ns, t =>
    match colIdx t (n.getD []) with
    | some _ => loadCols ns t
    | none => (insCol t t.cols.length (n.getD [])).bind fun r => loadCols ns r.1

/-- The loop over the columns of a row with a header (formats/table/m_table_csv.c:80-90).  `col` is the variable `colidx`, which
keeps its value if there is no such column; reading it before it was set is undefined behaviour (`none`). -/
def loadCells (row : Nat) : List (Option Bytes × Option Bytes) → Option Nat → Tbl → Option (Tbl × Option Nat)
  | [], col, t => some (t, col)
  | (n, v) :: r, col, t =>
    match (colIdx t (n.getD [])).or col with
    | none => none
    | some c => loadCells row r (some c) (setAt t row c v).1

/-- The loop over the rows with a header (formats/table/m_table_csv.c:77-91). -/
def loadRows (hd : List (Option Bytes)) : List (List (Option Bytes)) → Option Nat → Tbl → Option Tbl
  | [], _, t => some t
  | r :: rs, col, t =>
    (insRow t t.rows.length).bind fun u =>
      (loadCells t.rows.length (hd.zip r) col u.1).bind fun w => loadRows hd rs w.2 w.1

/-- The loop that adds columns when there is no header (formats/table/m_table_csv.c:67-69), `n` times. -/
def loadBlank : Nat → Tbl → Option Tbl
  | 0, t => some t
  | n + 1, t => (insCol t t.cols.length []).bind fun r => loadBlank n r.1

/-- The loop over the columns of a row without a header (formats/table/m_table_csv.c:80-90). -/
def plainCells (row : Nat) : Nat → List (Option Bytes) → Tbl → Tbl
  | _, [], t => t
  | j, v :: r, t => plainCells row (j + 1) r (setAt t row j v).1

/-- The loop over the rows without a header (formats/table/m_table_csv.c:77-91). -/
def plainRows : List (List (Option Bytes)) → Tbl → Option Tbl
  | [], t => some t
  | r :: rs, t => (insRow t t.rows.length).bind fun u => plainRows rs (plainCells t.rows.length 0 r u.1)

/-- `M_table_load_csv` (formats/table/m_table_csv.c:31-95). -/
def loadCsv (t : Tbl) (data : List UInt8) (delim quote : UInt8) (trim header : Bool) : Option (Tbl × Bool) :=
  if data = [] ∨ data.head? = some 0 then some (t, true)
  else match Csv.parse trim delim quote data with
    | none => none
    | some none => some (t, false)
    | some (some m) =>
      if header then
        ((loadCols (m.headD []) t).bind (loadRows (m.headD []) m.tail none)).map fun t => (t, true)
      else
        ((loadBlank (t.cols.length - (m.headD []).length) t).bind (plainRows m)).map fun t => (t, true)

end Verif.TableCsv
