import Verif.SqlQuery.Exec
import Verif.ExceptDec
/- Concrete cases, and where the code does not do what a user relies on. -/
namespace Verif.SqlQuery

/-- A text occurs in another one. -/
def hasSub (s : List UInt8) : List UInt8 → Bool
  | [] => s.isEmpty
  | c :: r => s.isPrefixOf (c :: r) || hasSub s r

/-- `SELECT a - -1` -/
def exComment : List UInt8 := [83, 69, 76, 69, 67, 84, 32, 97, 32, 45, 32, 45, 49]
/-- `CREATE TABLE t(a CHAR(9) DEFAULT 'x, y')` -/
def exCreate : List UInt8 := [67, 82, 69, 65, 84, 69, 32, 84, 65, 66, 76, 69, 32, 116, 40, 97, 32, 67, 72, 65, 82, 40, 57, 41, 32, 68, 69, 70, 65, 85, 76, 84, 32, 39, 120, 44, 32, 121, 39, 41]
/-- `INSERT INTO pvalues(a) VALUES(?)` -/
def exName : List UInt8 := [73, 78, 83, 69, 82, 84, 32, 73, 78, 84, 79, 32, 112, 118, 97, 108, 117, 101, 115, 40, 97, 41, 32, 86, 65, 76, 85, 69, 83, 40, 63, 41]
/-- `INSERT INTO t VALUES(?) ON DUPLICATE KEY UPDATE a=?` -/
def exOutside : List UInt8 := [73, 78, 83, 69, 82, 84, 32, 73, 78, 84, 79, 32, 116, 32, 86, 65, 76, 85, 69, 83, 40, 63, 41, 32, 79, 78, 32, 68, 85, 80, 76, 73, 67, 65, 84, 69, 32, 75, 69, 89, 32, 85, 80, 68, 65, 84, 69, 32, 97, 61, 63]
/-- `INSERT INTO t VALUES(?);` -/
def exTerm : List UInt8 := [73, 78, 83, 69, 82, 84, 32, 73, 78, 84, 79, 32, 116, 32, 86, 65, 76, 85, 69, 83, 40, 63, 41, 59]
/-- `INSERT INTO t VALUES(1)` -/
def exPlain : List UInt8 := [73, 78, 83, 69, 82, 84, 32, 73, 78, 84, 79, 32, 116, 32, 86, 65, 76, 85, 69, 83, 40, 49, 41]
/-- ' INSERT  INTO t\n(a, b) VALUES ( ?, (? + 1) ) ' -/
def exInsert : List UInt8 := [32, 73, 78, 83, 69, 82, 84, 32, 32, 73, 78, 84, 79, 32, 116, 10, 40, 97, 44, 32, 98, 41, 32, 86, 65, 76, 85, 69, 83, 32, 40, 32, 63, 44, 32, 40, 63, 32, 43, 32, 49, 41, 32, 41, 32]
/-- `INSERT INTO t(a,b)VALUES(?,(?+1))` -/
def exMin : List UInt8 := [73, 78, 83, 69, 82, 84, 32, 73, 78, 84, 79, 32, 116, 40, 97, 44, 98, 41, 86, 65, 76, 85, 69, 83, 40, 63, 44, 40, 63, 43, 49, 41, 41]
/-- `INSERT INTO t(a,b)VALUES($1,($2+1)),($3,($4+1)),($5,($6+1)) ON CONFLICT DO NOTHING` -/
def exThree : List UInt8 := [73, 78, 83, 69, 82, 84, 32, 73, 78, 84, 79, 32, 116, 40, 97, 44, 98, 41, 86, 65, 76, 85, 69, 83, 40, 36, 49, 44, 40, 36, 50, 43, 49, 41, 41, 44, 40, 36, 51, 44, 40, 36, 52, 43, 49, 41, 41, 44, 40, 36, 53, 44, 40, 36, 54, 43, 49, 41, 41, 32, 79, 78, 32, 67, 79, 78, 70, 76, 73, 67, 84, 32, 68, 79, 32, 78, 79, 84, 72, 73, 78, 71]

example : minimize exInsert = some exMin ∧ marks words none exInsert = marks words none exMin := by decide +kernel
example : queryformat exInsert (flagsOf .pgsql) 2 3 = some exThree := by decide +kernel
example : prepare exInsert false = .ok (Str.trim exInsert, 2) ∧ prepare exTerm false = .ok (exTerm, 1) ∧ prepare (59 :: exPlain) false = .error .noMultiQuery ∧
    prepare (39 :: exPlain) false = .error .strNotBound ∧ prepare (exPlain ++ [7, 59, 32, 40]) false = .error .prepareInvalid := by
  decide +kernel
example : Bound [[⟨1, 5⟩], []] [[⟨1, 5⟩]] ∧ Fit 1 [[⟨1, 5⟩], [⟨1, 6⟩]] := by
  refine ⟨Or.inl rfl, by simp, by decide, ?_⟩
  intro r hr r' hr' i v v' e e'
  simp only [List.mem_cons, List.not_mem_nil, or_false] at hr hr'
  match i with
  | 0 => rcases hr with rfl | rfl <;> rcases hr' with rfl | rfl <;> simp at e e' <;> subst e e' <;> rfl
  | i + 1 => rcases hr with rfl | rfl <;> simp at e

/-- Two values for each of three rows, and a blank row. -/
def exRows : List (List Value) := [[⟨1, 1⟩, ⟨2, 2⟩], [⟨1, 3⟩, ⟨2, 4⟩], [⟨1, 5⟩, ⟨2, 6⟩], []]

/- With SQLite limited to five placeholders the three rows go in two requests; the second may fail. -/
example : ((execute (.sqlite 5 500) exInsert 2 exRows fun _ _ => none).1.map fun r => r.vals.length) = [2, 1] ∧
    (execute (.sqlite 5 500) exInsert 2 exRows fun _ _ => none).2 = .done := by decide +kernel
example : ((execute (.sqlite 5 500) exInsert 2 exRows fun l _ => if l = [] then none else some .constraint).1.map fun r => r.vals.length) = [2, 1] ∧
    (execute (.sqlite 5 500) exInsert 2 exRows fun l _ => if l = [] then none else some .constraint).2 = .error .constraint := by decide +kernel
example : ((execute .pgsql exInsert 2 exRows fun _ _ => none).1.map Request.text) = [exThree] := by decide +kernel
example : (execute .mysql exInsert 2 [[⟨1, 1⟩, ⟨2, 2⟩], [⟨1, 3⟩]] fun _ _ => none) = ([], .error .wrongNumParams) ∧
    (execute .mysql exInsert 2 [[⟨1, 1⟩, ⟨2, 2⟩], [⟨2, 3⟩, ⟨2, 2⟩]] fun _ _ => none) = ([], .error .prepareInvalid) := by decide +kernel
/- The parts of the minimized text that `execute_placeholders_partial` asks for. -/
example : ∃ a v g b, exMin = a ++ v ++ g ++ b ∧ ValuesWord v ∧ (63 : UInt8) ∉ a ∧ (63 : UInt8) ∉ b ∧ g.count 63 = 2 ∧ depth g = 0 ∧ g.head? = some 40 ∧ expand exMin 1 = some exMin := by
  refine ⟨exMin.take 18, [86, 65, 76, 85, 69, 83], exMin.drop 24, [], by decide, ?_, by decide, by decide, by decide, by decide, by decide, by decide +kernel⟩
  unfold ValuesWord
  repeat first | exact .nil | refine .cons (.inl rfl) ?_

/-- Squeezing can turn two signs into the start of a comment. -/
theorem squeeze_comment_fails : ∃ q m, hasSub [45, 45] q = false ∧ minimize q = some m ∧ hasSub [45, 45] m = true :=
  ⟨exComment, [83, 69, 76, 69, 67, 84, 32, 97, 45, 45, 49], by decide +kernel⟩

/-- White space is taken out of the text of a string as well: the default of a column is changed. -/
theorem squeeze_literal_fails : ∃ q m lit, prepare q false = .ok (q, 0) ∧ minimize q = some m ∧ hasSub (39 :: lit ++ [39]) q = true ∧ hasSub (39 :: lit ++ [39]) m = false :=
  ⟨exCreate, [67, 82, 69, 65, 84, 69, 32, 84, 65, 66, 76, 69, 32, 116, 40, 97, 32, 67, 72, 65, 82, 40, 57, 41, 68, 69, 70, 65, 85, 76, 84, 32, 39, 120, 44, 121, 39, 41], [120, 44, 32, 121], by decide +kernel⟩

/-- The name of a table that ends in `values` is taken for the values: its list of columns is repeated, and the text sent has
fewer placeholders than there are values. -/
theorem placeholders_name_fails : ∃ q rows, prepare q false = .ok (q, 1) ∧
    ∃ r ∈ (execute .mysql q 1 rows fun _ _ => none).1, r.text.count 63 = 1 ∧ r.vals.flatten.length = 2 := by
  refine ⟨exName, [[⟨1, 1⟩], [⟨1, 2⟩]], by decide +kernel, ⟨[73, 78, 83, 69, 82, 84, 32, 73, 78, 84, 79, 32, 112, 118, 97, 108, 117, 101, 115, 40, 97, 41, 44, 40, 97, 41, 86, 65, 76, 85, 69, 83, 40, 63, 41], [[some ⟨1, 1⟩], [some ⟨1, 2⟩]]⟩, ?_, by decide, by decide⟩
  decide +kernel

/-- A placeholder behind the values is not repeated, but its value is bound for every row. -/
theorem placeholders_outside_fails : ∃ q rows, prepare q false = .ok (q, 2) ∧
    ∃ r ∈ (execute .mysql q 2 rows fun _ _ => none).1, r.text.count 63 = 3 ∧ r.vals.flatten.length = 4 := by
  refine ⟨exOutside, [[⟨1, 1⟩, ⟨1, 2⟩], [⟨1, 3⟩, ⟨1, 4⟩]], by decide +kernel,
    ⟨[73, 78, 83, 69, 82, 84, 32, 73, 78, 84, 79, 32, 116, 32, 86, 65, 76, 85, 69, 83, 40, 63, 41, 44, 40, 63, 41, 79, 78, 32, 68, 85, 80, 76, 73, 67, 65, 84, 69, 32, 75, 69, 89, 32, 85, 80, 68, 65, 84, 69, 32, 97, 61, 63], [[some ⟨1, 1⟩, some ⟨1, 2⟩], [some ⟨1, 3⟩, some ⟨1, 4⟩]]⟩, ?_, by decide, by decide⟩
  decide +kernel

/-- A terminator at the end is accepted, and with PostgreSQL the clause that is appended comes behind it. -/
theorem terminator_fails : ∃ q t a b, prepare q false = .ok (q, 1) ∧ queryformat q (flagsOf .pgsql) 1 1 = some t ∧ t = a ++ 59 :: b ∧ b ≠ [] :=
  ⟨exTerm, [73, 78, 83, 69, 82, 84, 32, 73, 78, 84, 79, 32, 116, 32, 86, 65, 76, 85, 69, 83, 40, 36, 49, 41, 59, 32, 79, 78, 32, 67, 79, 78, 70, 76, 73, 67, 84, 32, 68, 79, 32, 78, 79, 84, 72, 73, 78, 71], [73, 78, 83, 69, 82, 84, 32, 73, 78, 84, 79, 32, 116, 32, 86, 65, 76, 85, 69, 83, 40, 36, 49, 41], [32, 79, 78, 32, 67, 79, 78, 70, 76, 73, 67, 84, 32, 68, 79, 32, 78, 79, 84, 72, 73, 78, 71], by decide +kernel⟩

/-- The text for a database that wants no terminator keeps one (`include/mstdlib/sql/m_sql_driver.h:396` says it is stripped). -/
theorem terminator_kept_fails : ∃ q t, queryformat q {} 1 1 = some t ∧ t.getLast? = some 59 := ⟨exTerm, exTerm, by decide +kernel⟩

/-- With PostgreSQL a request of 100 rows can hold more values than its protocol takes (65535), with a table of no more than the 1600
columns that it allows. -/
theorem pgsql_limit_fails : ∃ params left, params ≤ 1600 ∧ processRows .pgsql params left ≠ 1 ∧ processRows .pgsql params left * params > 65535 :=
  ⟨700, 200, by decide⟩

/-- With PostgreSQL an insert without bound values that did insert its row is reported as a constraint violation. -/
theorem pgsql_insert_fails : ∃ text, StartsInsert text ∧ text.count 63 = 0 ∧ pgsqlOutcome text 1 0 = some .constraint := by
  refine ⟨exPlain, ⟨exPlain.take 6, exPlain.drop 6, by decide, ?_⟩, by decide, by decide +kernel⟩
  show Str.Alike true [73, 78, 83, 69, 82, 84] _
  repeat first | exact .nil | refine .cons (.inl rfl) ?_

end Verif.SqlQuery
