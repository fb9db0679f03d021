import Verif.Table.Model
import Verif.Cmp

/-!
What a table is for its users: a grid of cells with optional column names, without identifiers and hash tables.
-/

namespace Verif.Table

/-- A column's name or nothing, and for every row one value or nothing per column. -/
structure Grid where
  names : List (Option Bytes)
  cells : List (List (Option Bytes))
deriving DecidableEq, Repr

/-- Upper case ASCII letters made lower case. -/
def low (w : Bytes) : Bytes := w.map fun c => if 65 ≤ c.toNat ∧ c.toNat ≤ 90 then c + 32 else c

/-- Two names for the same column. -/
def Alike (ci : Bool) (a b : Bytes) : Prop := if ci then low a = low b else a = b

instance (ci : Bool) (a b : Bytes) : Decidable (Alike ci a b) := by unfold Alike; infer_instance

/-- The column with a name. -/
def Grid.find (ci : Bool) (g : Grid) (k : Bytes) : Option Nat := g.names.findIdx? fun n => n.any fun n => decide (Alike ci n k)

def named (name : Bytes) : Option Bytes := if name = [] then none else some name

/-- Operations that change a table. -/
inductive Op where
  | insCol (i : Nat) (name : Bytes)
  | setName (i : Nat) (name : Bytes)
  | rmCol (name : Bytes)
  | rmColAt (i : Nat)
  | rmEmptyCols
  | insRow (i : Nat)
  | insDict (i : Nat) (kvs : List (Bytes × Bytes)) (fl : Flags)
  | rmRow (i : Nat)
  | rmEmptyRows
  | set (row : Nat) (name : Bytes) (v : Option Bytes) (fl : Flags)
  | setAt (row col : Nat) (v : Option Bytes)
  | setDict (row : Nat) (kvs : List (Bytes × Bytes)) (fl : Flags)
  | sort (name : Bytes) (p1 : Cmp) (name2 : Bytes) (p2 : Option Cmp)
  | sortAt (i : Nat) (p1 : Cmp) (j : Nat) (p2 : Option Cmp)
  | order (p : Cmp)

/-- Their results: success, or how many columns or rows were removed, or nothing. -/
inductive Out where
  | bool (b : Bool)
  | count (n : Nat)
  | unit
deriving DecidableEq, Repr

namespace Grid

def addCol (g : Grid) (i : Nat) (name : Bytes) : Grid :=
  ⟨g.names.take i ++ named name :: g.names.drop i, g.cells.map fun r => r.take i ++ none :: r.drop i⟩

def delCol (g : Grid) (i : Nat) : Grid :=
  ⟨g.names.take i ++ g.names.drop (i + 1), g.cells.map fun r => r.take i ++ r.drop (i + 1)⟩

def addRow (g : Grid) (i : Nat) (row : List (Option Bytes)) : Grid := ⟨g.names, g.cells.take i ++ row :: g.cells.drop i⟩

def put (g : Grid) (row col : Nat) (v : Option Bytes) : Grid := ⟨g.names, g.cells.modify row fun r => r.set col v⟩

/-- The elements selected by a mask. -/
def pick {α : Type} : List Bool → List α → List α
  | b :: bs, x :: xs => if b then x :: pick bs xs else pick bs xs
  | _, _ => []

/-- Which columns hold a value in some row. -/
def used (g : Grid) : List Bool := (List.range g.names.length).map fun j => g.cells.any fun r => (r[j]?.bind id).isSome

/-- Values for a new row, with columns added as wanted; the row is `none` if a column is missing. -/
def fill (ci : Bool) (fl : Flags) : List (Bytes × Bytes) → Grid → List (Option Bytes) → Grid × Option (List (Option Bytes))
  | [], g, row => (g, some row)
  | (k, v) :: kvs, g, row =>
    match g.find ci k with
    | some j => fill ci fl kvs g (row.set j (some v))
    | none =>
      if fl.ignore then fill ci fl kvs g row
      else if fl.add then fill ci fl kvs (g.addCol g.names.length k) (row ++ [some v])
      else (g, none)

/-- One value is set by the name of its column. -/
def setCell (ci : Bool) (g : Grid) (row : Nat) (name : Bytes) (v : Option Bytes) (fl : Flags) : Grid × Bool :=
  if row ≥ g.cells.length ∨ name = [] then (g, false)
  else match g.find ci name with
    | some j => (g.put row j v, true)
    | none =>
      if fl.ignore then (g, true)
      else if fl.add then ((g.addCol g.names.length name).put row g.names.length v, true)
      else (g, false)

/-- Key of a row for sorting: the value, or the empty string. -/
def key (j : Option Nat) (r : List (Option Bytes)) : Bytes := ((j.bind fun j => r[j]?).bind id).getD []

/-- Rows in order for the comparison functions. -/
def Le (p1 : Cmp) (p2 : Option Cmp) (j1 j2 : Option Nat) (a b : List (Option Bytes)) : Prop :=
  p1 (key j1 a) (key j1 b) < 0 ∨ (p1 (key j1 a) (key j1 b) = 0 ∧ ∀ p, p2 = some p → p (key j2 a) (key j2 b) ≤ 0)

/-- The rows sorted. -/
def Sorted (p1 : Cmp) (p2 : Option Cmp) (j1 j2 : Option Nat) (g g' : Grid) : Prop :=
  g'.names = g.names ∧ g'.cells.Perm g.cells ∧ g'.cells.Pairwise (Le p1 p2 j1 j2)

/-- What each operation does. -/
inductive Step (ci : Bool) (g : Grid) : Op → Out → Grid → Prop
  | insCol {i name} : i ≤ g.names.length → (name ≠ [] → g.find ci name = none) →
      Step ci g (.insCol i name) (.bool true) (g.addCol i name)
  | insColNo {i name} : i > g.names.length ∨ (name ≠ [] ∧ g.find ci name ≠ none) → Step ci g (.insCol i name) (.bool false) g
  | setName {i name} : i < g.names.length →
      (name ≠ [] → ∀ j m, j ≠ i → g.names[j]? = some (some m) → ¬ Alike ci m name) →
      Step ci g (.setName i name) (.bool true) ⟨g.names.set i (named name), g.cells⟩
  | setNameNo {i name} : (i ≥ g.names.length ∨
      (name ≠ [] ∧ ∃ j m, j ≠ i ∧ g.names[j]? = some (some m) ∧ Alike ci m name)) → Step ci g (.setName i name) (.bool false) g
  | rmCol {name j} : g.find ci name = some j → Step ci g (.rmCol name) .unit (g.delCol j)
  | rmColNo {name} : g.find ci name = none → Step ci g (.rmCol name) .unit g
  | rmColAt {i} : i < g.names.length → Step ci g (.rmColAt i) .unit (g.delCol i)
  | rmColAtNo {i} : i ≥ g.names.length → Step ci g (.rmColAt i) .unit g
  | rmEmptyCols : Step ci g .rmEmptyCols (.count (g.used.count false)) ⟨pick g.used g.names, g.cells.map (pick g.used)⟩
  | insRow {i} : i ≤ g.cells.length → Step ci g (.insRow i) (.bool true) (g.addRow i (g.names.map fun _ => none))
  | insRowNo {i} : i > g.cells.length → Step ci g (.insRow i) (.bool false) g
  | insDict {i kvs fl g' row} : i ≤ g.cells.length → fill ci fl kvs g (g.names.map fun _ => none) = (g', some row) →
      Step ci g (.insDict i kvs fl) (.bool true) (g'.addRow i row)
  | insDictNo {i kvs fl} : (i > g.cells.length ∨ (fill ci fl kvs g (g.names.map fun _ => none)).2 = none) →
      Step ci g (.insDict i kvs fl) (.bool false) g
  | rmRow {i} : Step ci g (.rmRow i) .unit ⟨g.names, g.cells.take i ++ g.cells.drop (i + 1)⟩
  | rmEmptyRows : Step ci g .rmEmptyRows (.count (g.cells.countP fun r => r.all Option.isNone))
      ⟨g.names, g.cells.filter fun r => r.any Option.isSome⟩
  | set {row name v fl} : Step ci g (.set row name v fl) (.bool (g.setCell ci row name v fl).2) (g.setCell ci row name v fl).1
  | setAt {row col v} : row < g.cells.length → col < g.names.length → Step ci g (.setAt row col v) (.bool true) (g.put row col v)
  | setAtNo {row col v} : (row ≥ g.cells.length ∨ col ≥ g.names.length) → Step ci g (.setAt row col v) (.bool false) g
  | setDict {row kvs fl} : row < g.cells.length → (fl.ignore ∨ fl.add ∨ ∀ p ∈ kvs, g.find ci p.1 ≠ none) →
      Step ci g (.setDict row kvs fl) (.bool true) (kvs.foldl (fun g p => (g.setCell ci row p.1 (some p.2) fl).1) g)
  | setDictNo {row kvs fl} : (row ≥ g.cells.length ∨ (fl.ignore = false ∧ fl.add = false ∧ ∃ p ∈ kvs, g.find ci p.1 = none)) →
      Step ci g (.setDict row kvs fl) (.bool false) g
  | sort {name p1 name2 p2 j g'} : g.find ci name = some j → (name2 ≠ [] → g.find ci name2 ≠ none) →
      Sorted p1 p2 (some j) (g.find ci name2) g g' → Step ci g (.sort name p1 name2 p2) .unit g'
  | sortNo {name p1 name2 p2} : (g.find ci name = none ∨ (name2 ≠ [] ∧ g.find ci name2 = none)) →
      Step ci g (.sort name p1 name2 p2) .unit g
  | sortAt {i p1 j p2 g'} : i < g.names.length → j < g.names.length → Sorted p1 p2 (some i) (some j) g g' →
      Step ci g (.sortAt i p1 j p2) .unit g'
  | sortAtNo {i p1 j p2} : (i ≥ g.names.length ∨ j ≥ g.names.length) → Step ci g (.sortAt i p1 j p2) .unit g
  | order {p} {s : List Nat} : s.Perm (List.range g.names.length) →
      (s.map fun j => key (some j) g.names).Pairwise (fun a b => p a b ≤ 0) →
      Step ci g (.order p) .unit ⟨s.map fun j => g.names[j]?.bind id, g.cells.map fun r => s.map fun j => r[j]?.bind id⟩

/-- Many operations. -/
inductive Run (ci : Bool) : Grid → List (Op × Out) → Grid → Prop
  | nil {g} : Run ci g [] g
  | cons {g op out g' h g''} : Step ci g op out g' → Run ci g' h g'' → Run ci g ((op, out) :: h) g''

end Grid

/-- One operation on the model. -/
def step (t : Tbl) : Op → Option (Tbl × Out)
  | .insCol i name => (insCol t i name).map fun r => (r.1, .bool r.2.isSome)
  | .setName i name => some ((setName t i name).1, .bool (setName t i name).2)
  | .rmCol name => some (rmCol t name, .unit)
  | .rmColAt i => some (rmColAt t i, .unit)
  | .rmEmptyCols => some ((rmEmptyCols t).1, .count (rmEmptyCols t).2)
  | .insRow i => (insRow t i).map fun r => (r.1, .bool r.2.isSome)
  | .insDict i kvs fl => (insDict t i kvs fl).map fun r => (r.1, .bool r.2)
  | .rmRow i => some (rmRow t i, .unit)
  | .rmEmptyRows => some ((rmEmptyRows t).1, .count (rmEmptyRows t).2)
  | .set row name v fl => (set t row name v fl).map fun r => (r.1, .bool r.2)
  | .setAt row col v => some ((setAt t row col v).1, .bool (setAt t row col v).2)
  | .setDict row kvs fl => (setDict t row kvs fl).map fun r => (r.1, .bool r.2)
  | .sort name p1 name2 p2 => (sort t name p1 name2 p2).map fun t => (t, .unit)
  | .sortAt i p1 j p2 => (sortAt t i p1 j p2).map fun t => (t, .unit)
  | .order p => (order t p).map fun t => (t, .unit)

/-- What the caller sees through `M_table_column_name` and `M_table_cell_at`. -/
def view (t : Tbl) : Grid :=
  ⟨(List.range t.cols.length).map (colName t),
   (List.range t.rows.length).map fun r => (List.range t.cols.length).map (cellAt t r)⟩

/-- Comparison functions are lawful. -/
def Lawful : Op → Prop
  | .sort _ p1 _ p2 => LawfulCmp p1 ∧ ∀ p, p2 = some p → LawfulCmp p
  | .order p => LawfulCmp p
  | _ => True

/-- Uses for which the code does what the description says.  Excluded are renaming a column that has a name, taking the name of
another column, setting values in a row that does not exist from a dictionary, and sorting by column number. -/
def Ok (ci : Bool) (g : Grid) : Op → Prop
  | .setName i name => (∀ m, g.names[i]? = some (some m) → name ≠ [] ∧ Alike ci m name) ∧
      ∀ j m, j ≠ i → g.names[j]? = some (some m) → ¬ Alike ci m name
  | .setDict row _ _ => row < g.cells.length
  | .sortAt .. => False
  | _ => True

/-- Histories of the model. -/
inductive Hist : Tbl → List (Op × Out) → Tbl → Prop
  | nil {t} : Hist t [] t
  | cons {t op out t' h t''} : Ok t.ci (view t) op → Lawful op → step t op = some (t', out) → Hist t' h t'' →
      Hist t ((op, out) :: h) t''

end Verif.Table
