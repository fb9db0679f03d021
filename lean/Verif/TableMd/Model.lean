import Verif.Table.Model
import Verif.Parser.Scan

/-!
# Tables as Markdown: `formats/table/m_table_markdown.c`

A parser is represented by the bytes it has left.  Not modelled: null pointers, and zero bytes in the text (a name or value would
end there).
-/

namespace Verif.TableMd
open Verif Verif.Table

/-- `base/data/m_parser.c:937-961`, `M_parser_consume_whitespace` without flags. -/
def ltrim (l : Bytes) : Bytes := l.dropWhile Chr.isSpace

/-- `base/data/m_parser.c:765-796`, `M_parser_truncate_whitespace` without flags. -/
def rtrim (l : Bytes) : Bytes := (l.reverse.dropWhile Chr.isSpace).reverse

/-- Both, as in `formats/table/m_table_markdown.c:106-107`. -/
def trim (l : Bytes) : Bytes := rtrim (ltrim l)

/-- `formats/table/m_table_markdown.c:46-79`, `read_strip_framing_eol`, after the first pipe.  The byte before the carriage
return is compared with a carriage return, not a pipe.  If nothing is left before it then the length wraps, the byte compared is
the carriage return again, and truncating to a length that is too great does nothing. -/
def stripEnd (l : Bytes) : Option Bytes :=
  let n := if l[l.length - 1]? = some 13 then l.length - 1 else l.length
  if l = [] then none
  else if n = 0 then some l
  else
    let m := if l[n - 1]? = some 13 then n - 1 else n
    if m = 0 then none else some (l.take m)

/-- `formats/table/m_table_markdown.c:31-80`, `read_strip_framing_eol`. -/
def strip : Bytes → Option Bytes
  | [] => none
  | c :: l => stripEnd (if c = 124 then l else c :: l)

/-- `formats/table/m_table_markdown.c:82-88`, `read_cols`; no columns stands for NULL too. -/
def readCols (l : Bytes) : Option (List Bytes) :=
  match strip l with
  | none => some []
  | some l => (Parser.Scan.split l [124] 0 false false).map (·.getD [])

/-- `formats/table/m_table_markdown.c:103-112`, `read_header`: the columns; the results are not looked at. -/
def addCols : List Bytes → Tbl → Option Tbl
  | [], t => some t
  | c :: cs, t => (insCol t t.cols.length (trim c)).bind fun x => addCols cs x.1

/-- `formats/table/m_table_markdown.c:134-161`, `read_header_sep_line`: one column. -/
def sepOk (c : Bytes) : Bool :=
  let c := trim c
  let c := if c.head? = some 58 then c.tail else c
  let n := (c.takeWhile (· == 45)).length
  let c := c.drop n
  let k := (c.takeWhile (· == 58)).length
  3 ≤ n && k ≤ 1 && c.length == k

/-- `formats/table/m_table_markdown.c:195-208`, `read_data_line`: the cells from column `j`. -/
def putCells (row : Nat) : Nat → List Bytes → Tbl → Tbl
  | _, [], t => t
  | j, c :: cs, t => putCells row (j + 1) cs (if trim c = [] then t else (setAt t row j (some (trim c))).1)

/-- `formats/table/m_table_markdown.c:407-414` with 171-212, `read_data_line`. -/
def readRows : List Bytes → Tbl → Option (Tbl × Bool)
  | [], t => some (t, true)
  | l :: ls, t => (readCols l).bind fun cols =>
      if cols = [] ∨ cols.length > t.cols.length then some (t, false)
      else (insRow t t.rows.length).bind fun x => readRows ls (putCells t.rows.length 0 cols x.1)

/-- `formats/table/m_table_markdown.c:374-419`, `M_table_load_markdown`. -/
def loadMd (t : Tbl) (data : Bytes) : Option (Tbl × Bool) :=
  (Parser.Scan.split (rtrim (ltrim data)) [10] 0 false false).bind fun o =>
    match o with
    | some (hd :: sep :: d :: ds) =>
      (readCols hd).bind fun cols =>
        if cols = [] then some (t, false)
        else (addCols cols t).bind fun t =>
          (readCols sep).bind fun seps =>
            if seps = [] ∨ seps.all sepOk = false then some (t, false) else readRows (d :: ds) t
    | _ => some (t, false)

/-- `M_table_markdown_flags_t`. -/
structure MFlags where
  pretty : Bool
  outer : Bool
  win : Bool

/-- `formats/table/m_table_markdown.c:279-292`, `write_cell_padding`, after the cell itself. -/
def padded (fl : MFlags) (w : Nat) (c : Bytes) : Bytes := if fl.pretty then c ++ List.replicate (w - c.length) 32 else c

/-- `formats/table/m_table_markdown.c:260-277`, `write_line_start` and `write_line_end` around the cells, each of which is followed by
a separator; without the line end.  There is at least one cell, so that what is truncated is the last separator. -/
def line (fl : MFlags) (cells : List Bytes) : Bytes :=
  let b := (if fl.outer then [124, 32] else []) ++ cells.flatMap (· ++ [32, 124, 32])
  let b := b.take (b.length - 1)
  if fl.outer then b else b.take (b.length - 2)

/-- `formats/table/m_table_markdown.c:274-276`. -/
def ending (fl : MFlags) : Bytes := if fl.win then [13, 10] else [10]

/-- `formats/table/m_table_markdown.c:216-258`, `write_determine_cell_widths`: one column. -/
def width (t : Tbl) (j : Nat) : Nat :=
  (List.range t.rows.length).foldl (fun w i => if ((cellAt t i j).getD []).length > w then ((cellAt t i j).getD []).length else w)
    (if ((colName t j).getD []).length > 3 then ((colName t j).getD []).length else 3)

/-- `formats/table/m_table_markdown.c:330-332`: without the widths there are three dashes. -/
def dashes (t : Tbl) (fl : MFlags) (j : Nat) : Bytes := List.replicate (if fl.pretty then width t j else 3) 45

/-- `formats/table/m_table_markdown.c:295-370`, `write_header`, `write_header_sep_line` and `write_data_lines`: the cells. -/
def linesOf (t : Tbl) (fl : MFlags) : List (List Bytes) :=
  ((List.range t.cols.length).map fun j => padded fl (width t j) ((colName t j).getD [])) ::
  ((List.range t.cols.length).map (dashes t fl)) ::
  (List.range t.rows.length).map fun i => (List.range t.cols.length).map fun j => padded fl (width t j) ((cellAt t i j).getD [])

/-- `formats/table/m_table_markdown.c:421-447`, `M_table_write_markdown`; `none` is NULL. -/
def writeMd (t : Tbl) (fl : MFlags) : Option Bytes :=
  if t.cols.length = 0 ∨ t.rows.length = 0 then none
  else
    let b := (linesOf t fl).flatMap fun l => line fl l ++ ending fl
    let b := b.take (b.length - 1)
    some (if b[b.length - 1]? = some 13 then b.take (b.length - 1) else b)

end Verif.TableMd
