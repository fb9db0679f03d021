[
 {
  "file": "Csv/Model",
  "def": "countLoop",
  "old": "if d = quote then countLoop delim quote r on (rowLen + 1) rows cols",
  "new": "if d = quote then countLoop delim quote r (!on) (rowLen + 1) rows cols",
  "claim": "doubled quotes do not toggle the quoting in the count"
 },
 {
  "file": "Csv/Model",
  "def": "countLoop",
  "old": "else if on = false ∧ c = delim ∧ rows = 0 then countLoop delim quote (d :: r) on (rowLen + 1) rows (cols + 1)",
  "new": "else if c = delim ∧ rows = 0 then countLoop delim quote (d :: r) on (rowLen + 1) rows (cols + 1)",
  "claim": "quoted delimiters are not counted"
 },
 {
  "file": "Csv/Model",
  "def": "countLoop",
  "old": "else if on = false ∧ c = 10 then countLoop delim quote (d :: r) on 0 (rows + 1)",
  "new": "else if c = 10 then countLoop delim quote (d :: r) on 0 (rows + 1)",
  "claim": "quoted line feeds are not counted"
 },
 {
  "file": "Csv/Model",
  "def": "countLoop",
  "old": "else if on = true ∨ c ≠ 13 then countLoop delim quote (d :: r) on (rowLen + 1) rows cols",
  "new": "else if True then countLoop delim quote (d :: r) on (rowLen + 1) rows cols",
  "claim": "carriage returns alone do not make a row"
 },
 {
  "file": "Csv/Model",
  "def": "countLoop",
  "old": "c = delim ∧ rows = 0 then countLoop",
  "new": "c = delim then countLoop",
  "claim": "columns are those of the first row"
 },
 {
  "file": "Csv/Model",
  "def": "count",
  "old": "if r.1 ≠ 0 then r.2.1 + 1 else r.2.1",
  "new": "r.2.1 + 1",
  "claim": "a final line feed makes no row"
 },
 {
  "file": "Csv/Model",
  "def": "count",
  "old": "if r.2.1 = 0 ∧ r.1 ≠ 0 then r.2.2 + 1 else r.2.2",
  "new": "r.2.2",
  "claim": "single row without line feed"
 },
 {
  "file": "Csv/Model",
  "def": "removeLoop",
  "old": "if d = quote then quote :: removeLoop quote r else",
  "new": "if d = quote then removeLoop quote r else",
  "claim": "doubled quotes become one"
 },
 {
  "file": "Csv/Model",
  "def": "removeLoop",
  "old": "[c] => if c = quote then [] else [c]",
  "new": "[c] => [c]",
  "claim": "closing quote removed"
 },
 {
  "file": "Csv/Model",
  "def": "removeQuotes",
  "old": "if t = [quote] then [] else t",
  "new": "t",
  "claim": "cell of a lone quote"
 },
 {
  "file": "Csv/Model",
  "def": "finish",
  "old": "if had then some (removeQuotes quote s)",
  "new": "if had then some (removeQuotes quote (Str.trim s))",
  "claim": "quoted cells are not trimmed"
 },
 {
  "file": "Csv/Model",
  "def": "finish",
  "old": "if trim then Str.trim s else s",
  "new": "Str.trim s",
  "claim": "trimming is optional"
 },
 {
  "file": "Csv/Model",
  "def": "finish",
  "old": "if s = [] then none else some s",
  "new": "some s",
  "claim": "empty cells are absent"
 },
 {
  "file": "Csv/Model",
  "def": "finish",
  "old": "cell.takeWhile (· ≠ 0)",
  "new": "cell",
  "claim": "cells end at the carriage return"
 },
 {
  "file": "Csv/Model",
  "def": "closeCell",
  "old": "if col < cols then",
  "new": "if col ≤ cols then",
  "claim": "cells beyond the columns are dropped"
 },
 {
  "file": "Csv/Model",
  "def": "closeCell",
  "old": "if col < cols then",
  "new": "if col + 1 < cols then",
  "claim": "the last column is stored"
 },
 {
  "file": "Csv/Model",
  "def": "onDelim",
  "old": "had := false, col",
  "new": "col",
  "claim": "quoting flag is reset by a delimiter"
 },
 {
  "file": "Csv/Model",
  "def": "onDelim",
  "old": "col := s.col + 1, cur := []",
  "new": "col := s.col + 1",
  "claim": "the next cell is fresh"
 },
 {
  "file": "Csv/Model",
  "def": "onNewline",
  "old": "row := s.row + 1, col := 0, had := false, cur := [] }",
  "new": "row := s.row + 1, col := s.col, had := false, cur := [] }",
  "claim": "each row starts at column zero"
 },
 {
  "file": "Csv/Model",
  "def": "onNewline",
  "old": "col := 0, had := false, cur := [] }",
  "new": "col := 0, cur := [] }",
  "claim": "quoting flag is reset by a new row"
 },
 {
  "file": "Csv/Model",
  "def": "onNewline",
  "old": "if s.row + 1 = rows then",
  "new": "if s.row = rows then",
  "claim": "store past the last row"
 },
 {
  "file": "Csv/Model",
  "def": "parseLoop",
  "old": "if s.on = true ∧ d = quote then",
  "new": "if d = quote then",
  "claim": "empty quoted cell"
 },
 {
  "file": "Csv/Model",
  "def": "parseLoop",
  "old": "{ s with had := true, cur := s.cur ++ [c, d] }",
  "new": "{ s with had := true, cur := s.cur ++ [c] }",
  "claim": "escaped quote keeps both bytes until removal"
 },
 {
  "file": "Csv/Model",
  "def": "parseLoop",
  "old": "else if s.on = false ∧ c = delim then (onDelim trim quote cols s).bind",
  "new": "else if c = delim then (onDelim trim quote cols s).bind",
  "claim": "quoted delimiters do not end the cell"
 },
 {
  "file": "Csv/Model",
  "def": "parseLoop",
  "old": "else if s.on = false ∧ c = 13 then parseLoop trim delim quote rows cols (d :: r) { s with cur := s.cur ++ [0] }",
  "new": "else if c = 13 then parseLoop trim delim quote rows cols (d :: r) { s with cur := s.cur ++ [0] }",
  "claim": "quoted carriage returns are kept"
 },
 {
  "file": "Csv/Model",
  "def": "parse",
  "old": "if s.row < n.1 ∧ s.col < n.2 then",
  "new": "if s.row + 1 < n.1 ∧ s.col < n.2 then",
  "claim": "last cell without line feed is stored"
 },
 {
  "file": "Csv/Model",
  "def": "double",
  "old": "then c :: quote :: double quote r",
  "new": "then c :: double quote r",
  "claim": "quotes are doubled"
 },
 {
  "file": "Csv/Model",
  "def": "needsQuotes",
  "old": "[delim, quote, 10, 13]",
  "new": "[delim, quote, 10]",
  "claim": "carriage returns force quotes"
 },
 {
  "file": "Csv/Model",
  "def": "needsQuotes",
  "old": "[delim, quote, 10, 13]",
  "new": "[quote, 10, 13]",
  "claim": "delimiters force quotes"
 },
 {
  "file": "Csv/Model",
  "def": "needsQuotes",
  "old": "cell.head?.any isSpace || cell.getLast?.any isSpace",
  "new": "cell.head?.any isSpace",
  "claim": "trailing white space forces quotes"
 },
 {
  "file": "Csv/Model",
  "def": "addCell",
  "old": "q ++ double quote (c :: r) ++ q",
  "new": "q ++ (c :: r) ++ q",
  "claim": "quotes are doubled"
 },
 {
  "file": "Csv/Model",
  "def": "writeRow",
  "old": "out.take (out.length - 1)",
  "new": "out",
  "claim": "no trailing delimiter"
 }
]