import Verif.Str.Model
/- Model of `formats/csv/m_csv.c`: the two passes of the parser and the writer.  The parser cuts the text in place and keeps
pointers to the beginnings of the cells; the cells do not overlap, so here each cell is the list of its bytes.  The matrix of
pointers is a list of rows and every store into it is checked: `none` is a store outside it.  The byte behind the text is
the terminator (`M_csv_parse` adds it).  Not modelled: the table of the column names, the row filter and the cell callback,
the choice of columns by name. -/
namespace Verif.Csv
open Verif.Chr (isSpace)

/-- `formats/csv/m_csv.c:53-72`: the loop of `M_csv_parse_count`, over the rest of the text.  The result is `row_len`,
`num_rows` and `num_cols`. -/
def countLoop (delim quote : UInt8) : List UInt8 → (on : Bool) → (rowLen rows cols : Nat) → Nat × Nat × Nat
  | [], _, rowLen, rows, cols => (rowLen, rows, cols)
  | [c], on, rowLen, rows, cols =>
    if c = quote then (rowLen + 1, rows, cols)
    else if on = false ∧ c = delim ∧ rows = 0 then (rowLen + 1, rows, cols + 1)
    else if on = false ∧ c = 10 then (0, rows + 1, if rows = 0 then cols + 1 else cols)
    else if on = true ∨ c ≠ 13 then (rowLen + 1, rows, cols)
    else (rowLen, rows, cols)
  | c :: d :: r, on, rowLen, rows, cols =>
    if c = quote then
      if d = quote then countLoop delim quote r on (rowLen + 1) rows cols
      else countLoop delim quote (d :: r) (!on) (rowLen + 1) rows cols
    else if on = false ∧ c = delim ∧ rows = 0 then countLoop delim quote (d :: r) on (rowLen + 1) rows (cols + 1)
    else if on = false ∧ c = 10 then countLoop delim quote (d :: r) on 0 (rows + 1) (if rows = 0 then cols + 1 else cols)
    else if on = true ∨ c ≠ 13 then countLoop delim quote (d :: r) on (rowLen + 1) rows cols
    else countLoop delim quote (d :: r) on rowLen rows cols

/-- `formats/csv/m_csv.c:44-79`, `M_csv_parse_count`: rows and columns. -/
def count (delim quote : UInt8) (text : List UInt8) : Nat × Nat :=
  let r := countLoop delim quote text false 0 0 0
  (if r.1 ≠ 0 then r.2.1 + 1 else r.2.1, if r.2.1 = 0 ∧ r.1 ≠ 0 then r.2.2 + 1 else r.2.2)

/-- `formats/csv/m_csv.c:91-100`: the loop of `M_csv_remove_quotes`; the bytes written. -/
def removeLoop (quote : UInt8) : List UInt8 → List UInt8
  | [] => []
  | [c] => if c = quote then [] else [c]
  | c :: d :: r =>
    if c = quote then if d = quote then quote :: removeLoop quote r else removeLoop quote (d :: r)
    else c :: removeLoop quote (d :: r)

/-- `formats/csv/m_csv.c:82-108`, `M_csv_remove_quotes`, of the string. -/
def removeQuotes (quote : UInt8) (s : List UInt8) : List UInt8 :=
  let t := removeLoop quote s
  if t = [quote] then [] else t

/-- `formats/csv/m_csv.c:229-240` (also 258-269 and 291-302): a finished cell; `none` is the null pointer.  The bytes of the
cell end at the first zero byte. -/
def finish (trim : Bool) (quote : UInt8) (had : Bool) (cell : List UInt8) : Option (List UInt8) :=
  let s := cell.takeWhile (· ≠ 0)
  if had then some (removeQuotes quote s)
  else
    let s := if trim then Str.trim s else s
    if s = [] then none else some s

abbrev Matrix := List (List (Option (List UInt8)))

/-- A store to `out[row][col]`. -/
def store (m : Matrix) (row col : Nat) (x : Option (List UInt8)) : Option Matrix :=
  if row < m.length ∧ col < (m.getD row []).length then some (m.set row ((m.getD row []).set col x)) else none

/-- `formats/csv/m_csv.c:226-241`, 255-270 and 288-303: a cell of the first `num_cols` columns is finished. -/
def closeCell (trim : Bool) (quote : UInt8) (cols : Nat) (m : Matrix) (row col : Nat) (had : Bool) (cur : List UInt8) : Option Matrix :=
  if col < cols then store m row col (finish trim quote had cur) else some m

/-- State of the loop of `M_csv_parse_inplace`; `cur` are the bytes of the present cell. -/
structure St where
  row : Nat
  col : Nat
  on : Bool
  had : Bool
  cur : List UInt8
  m : Matrix

/-- `formats/csv/m_csv.c:223-251`: a delimiter. -/
def onDelim (trim : Bool) (quote : UInt8) (cols : Nat) (s : St) : Option St :=
  (closeCell trim quote cols s.m s.row s.col s.had s.cur).map fun m => { s with m := m, had := false, col := s.col + 1, cur := [] }

/-- `formats/csv/m_csv.c:252-280`: a line feed; the result says whether the loop ends.  The pointer to the first cell of the
next row is stored, so this cell must be in the matrix. -/
def onNewline (trim : Bool) (quote : UInt8) (rows cols : Nat) (s : St) : Option (St × Bool) :=
  (closeCell trim quote cols s.m s.row s.col s.had s.cur).bind fun m =>
    if s.row + 1 = rows then some ({ s with m := m, row := s.row + 1, col := 0 }, true)
    else if s.row + 1 < m.length ∧ 0 < (m.getD (s.row + 1) []).length then some ({ s with m := m, row := s.row + 1, col := 0, had := false, cur := [] }, false)
    else none

/-- `formats/csv/m_csv.c:212-284`: the loop of `M_csv_parse_inplace` over the rest of the text. -/
def parseLoop (trim : Bool) (delim quote : UInt8) (rows cols : Nat) : List UInt8 → St → Option St
  | [], s => some s
  | [c], s =>
    if c = quote then some { s with had := true, on := !s.on, cur := s.cur ++ [c] }
    else if s.on = false ∧ c = delim then onDelim trim quote cols s
    else if s.on = false ∧ c = 10 then (onNewline trim quote rows cols s).map (·.1)
    else if s.on = false ∧ c = 13 then some { s with cur := s.cur ++ [0] }
    else some { s with cur := s.cur ++ [c] }
  | c :: d :: r, s =>
    if c = quote then
      if s.on = true ∧ d = quote then parseLoop trim delim quote rows cols r { s with had := true, cur := s.cur ++ [c, d] }
      else parseLoop trim delim quote rows cols (d :: r) { s with had := true, on := !s.on, cur := s.cur ++ [c] }
    else if s.on = false ∧ c = delim then (onDelim trim quote cols s).bind fun s => parseLoop trim delim quote rows cols (d :: r) s
    else if s.on = false ∧ c = 10 then
      (onNewline trim quote rows cols s).bind fun p => if p.2 then some p.1 else parseLoop trim delim quote rows cols (d :: r) p.1
    else if s.on = false ∧ c = 13 then parseLoop trim delim quote rows cols (d :: r) { s with cur := s.cur ++ [0] }
    else parseLoop trim delim quote rows cols (d :: r) { s with cur := s.cur ++ [c] }

/-- `formats/csv/m_csv.c:180-312`, `M_csv_parse_inplace`, and 322-339, `M_csv_parse`: the matrix, `M_csv_raw_cell` (392-400)
gives its cells.  The inner `none` is the null pointer. -/
def parse (trim : Bool) (delim quote : UInt8) (text : List UInt8) : Option (Option Matrix) :=
  if text = [] then some none
  else
    let n := count delim quote text
    if n.1 = 0 then some none
    else if n.2 = 0 then none
    else (parseLoop trim delim quote n.1 n.2 text ⟨0, 0, false, false, [], List.replicate n.1 (List.replicate n.2 none)⟩).bind fun s =>
      if s.row < n.1 ∧ s.col < n.2 then (closeCell trim quote n.2 s.m s.row s.col s.had s.cur).map some else some (some s.m)

/-- `formats/csv/m_csv.c:142-154`: the loop of `add_cell`, byte by byte instead of run by run. -/
def double (quote : UInt8) : List UInt8 → List UInt8
  | [] => []
  | c :: r => if c = quote then c :: quote :: double quote r else c :: double quote r

/-- `formats/csv/m_csv.c:129-137`: whether the cell has to be enclosed in quotes. -/
def needsQuotes (delim quote : UInt8) (cell : List UInt8) : Bool :=
  cell.head?.any isSpace || cell.getLast?.any isSpace || cell.any fun c => c ∈ [delim, quote, 10, 13].takeWhile (· ≠ 0)

/-- `formats/csv/m_csv.c:117-163`, `add_cell`. -/
def addCell (delim quote : UInt8) (cell : Option (List UInt8)) : List UInt8 :=
  (match cell with
    | none => []
    | some [] => []
    | some (c :: r) =>
      let q := if needsQuotes delim quote (c :: r) then [quote] else []
      q ++ double quote (c :: r) ++ q) ++ [delim]

/-- `formats/csv/m_csv.c:497-508` and 561-575: one row. -/
def writeRow (delim quote : UInt8) (row : List (Option (List UInt8))) : List UInt8 :=
  let out := row.flatMap (addCell delim quote)
  out.take (out.length - 1) ++ [13, 10]

/-- `formats/csv/m_csv.c:486-509`, `M_csv_output_headers_buf`, and 531-579, `M_csv_output_rows_buf`, of all columns and all
rows. -/
def write (delim quote : UInt8) (m : Matrix) : List UInt8 := m.flatMap (writeRow delim quote)

end Verif.Csv
