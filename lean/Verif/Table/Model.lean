import Verif.Qsort.Model
import Verif.Chr

/-!
Tables, `formats/table/m_table.c`.

The hash tables are association lists, the lists of identifiers are lists.  The random numbers that the identifiers are made of
are part of the state: a list of all those still to come; an operation that needs more of them has no result.  Not modelled
here: merging tables (`Verif.TableMerge`), the CSV, JSON and Markdown forms (`Verif.TableCsv`, `Verif.TableJson`, `Verif.TableMd`); not modelled at all:
copying tables, null tables, and null pointers for column names (the same as an
empty name).
-/

namespace Verif.Table
open Verif

abbrev Bytes := List UInt8

/-- Hash table lookup. -/
def aget {α β : Type} (eq : α → α → Bool) (l : List (α × β)) (k : α) : Option β := (l.find? fun p => eq p.1 k).map (·.2)

/-- Hash table insertion: replaces the value of an existing key. -/
def aput {α β : Type} (eq : α → α → Bool) (l : List (α × β)) (k : α) (v : β) : List (α × β) :=
  if l.any (fun p => eq p.1 k) then l.map fun p => if eq p.1 k then (p.1, v) else p else l ++ [(k, v)]

/-- Hash table removal. -/
def adel {α β : Type} (eq : α → α → Bool) (l : List (α × β)) (k : α) : List (α × β) := l.filter fun p => !eq p.1 k

/-- Equality of identifiers. -/
def ideq (a b : Nat) : Bool := a == b

/-- Equality of column names; with `M_TABLE_COLNAME_CASECMP` the case does not matter. -/
def nmeq (ci : Bool) (a b : Bytes) : Bool := if ci then a.map Chr.toLower == b.map Chr.toLower else a == b

/-- `formats/table/m_table.c:31-47`, `struct M_table`, without the fields used during sorting. -/
structure Tbl where
  ci : Bool
  cols : List Nat
  idName : List (Nat × Bytes)
  nameId : List (Bytes × Nat)
  rows : List Nat
  data : List (Nat × List (Nat × Bytes))
  rs : List Nat
deriving DecidableEq, Repr

/-- `formats/table/m_table.c:121-130`, `generate_id`: the identifier and the random numbers left. -/
def genId (used : Nat → Bool) : List Nat → Option (Nat × List Nat)
  | [] => none
  | r :: rs => if r ≠ 0 ∧ used r then genId used rs else some (r, rs)

/-- `formats/table/m_table.c:277-302`, `M_table_create`. -/
def create (ci : Bool) (rs : List Nat) : Tbl := ⟨ci, [], [], [], [], [], rs⟩

/-- `formats/table/m_table.c:207-232`, `M_table_column_insert_at_int`: the identifier, or `none` if refused. -/
def insCol (t : Tbl) (i : Nat) (name : Bytes) : Option (Tbl × Option Nat) :=
  if i > t.cols.length then some (t, none)
  else if name ≠ [] ∧ (aget (nmeq t.ci) t.nameId name).isSome then some (t, none)
  else (genId (fun id => (aget ideq t.idName id).isSome) t.rs).map fun (id, rs) =>
    ({ t with
        rs := rs
        cols := t.cols.take i ++ id :: t.cols.drop i
        idName := if name ≠ [] then aput ideq t.idName id name else t.idName
        nameId := if name ≠ [] then aput (nmeq t.ci) t.nameId name id else t.nameId }, some id)

/-- `formats/table/m_table.c:334-343`, `M_table_column_name`. -/
def colName (t : Tbl) (i : Nat) : Option Bytes :=
  if i ≥ t.cols.length then none else t.cols[i]?.bind (aget ideq t.idName)

/-- `formats/table/m_table.c:345-363`, `M_table_column_set_name`. -/
def setName (t : Tbl) (i : Nat) (name : Bytes) : Tbl × Bool :=
  match t.cols[i]? with
  | none => (t, false)
  | some id =>
    if name = [] then ({ t with idName := adel ideq t.idName id, nameId := adel (nmeq t.ci) t.nameId name }, true)
    else ({ t with idName := aput ideq t.idName id name, nameId := aput (nmeq t.ci) t.nameId name id }, true)

/-- `formats/table/m_table.c:365-376`, `M_table_column_idx`. -/
def colIdx (t : Tbl) (name : Bytes) : Option Nat := (aget (nmeq t.ci) t.nameId name).bind fun id => t.cols.findIdx? (· == id)

/-- `formats/table/m_table.c:194-197` and `503-505`: the names of a column are forgotten; a missing name removes nothing. -/
def dropName (t : Tbl) (id : Nat) : Tbl :=
  { t with
    nameId := match aget ideq t.idName id with
      | some n => adel (nmeq t.ci) t.nameId n
      | none => t.nameId
    idName := adel ideq t.idName id }

/-- `formats/table/m_table.c:181-205`, `M_table_column_remove_int`. -/
def rmColInt (t : Tbl) (id : Nat) : Tbl :=
  if id ∉ t.cols then t
  else
    let t := dropName { t with cols := t.cols.filter (· != id) } id
    { t with data := t.data.map fun p => (p.1, adel ideq p.2 id) }

/-- `formats/table/m_table.c:449-460`, `M_table_column_remove`. -/
def rmCol (t : Tbl) (name : Bytes) : Tbl :=
  if name = [] then t
  else match aget (nmeq t.ci) t.nameId name with
    | none => t
    | some id => rmColInt t id

/-- `formats/table/m_table.c:462-471`, `M_table_column_remove_at`. -/
def rmColAt (t : Tbl) (i : Nat) : Tbl :=
  match t.cols[i]? with
  | none => t
  | some id => rmColInt t id

/-- `formats/table/m_table.c:488-508`: the loop of `M_table_column_remove_empty_columns` over the columns before `i`. -/
def rmEmptyColsLoop : Nat → Tbl → Nat → Tbl × Nat
  | 0, t, cnt => (t, cnt)
  | i + 1, t, cnt =>
    match t.cols[i]? with
    | none => rmEmptyColsLoop i t cnt
    | some id =>
      if t.data.any fun p => (aget ideq p.2 id).isSome then rmEmptyColsLoop i t cnt
      else rmEmptyColsLoop i (dropName { t with cols := t.cols.take i ++ t.cols.drop (i + 1) } id) (cnt + 1)

/-- `formats/table/m_table.c:473-511`, `M_table_column_remove_empty_columns`. -/
def rmEmptyCols (t : Tbl) : Tbl × Nat := rmEmptyColsLoop t.cols.length t 0

/-- `formats/table/m_table.c:234-248`, `M_table_row_insert_at_int`: the identifier, or `none` if refused. -/
def insRow (t : Tbl) (i : Nat) : Option (Tbl × Option Nat) :=
  if i > t.rows.length then some (t, none)
  else (genId (fun id => (aget ideq t.data id).isSome) t.rs).map fun (id, rs) =>
    ({ t with rs := rs, rows := t.rows.take i ++ id :: t.rows.drop i }, some id)

/-- `M_table_insert_flags_t`. -/
structure Flags where
  add : Bool
  ignore : Bool
deriving DecidableEq, Repr

/-- `formats/table/m_table.c:572-591`: the loop of `M_table_row_insert_dict_at`.  The row is `none` if the insertion fails. -/
def dictLoop (fl : Flags) : List (Bytes × Bytes) → Tbl → List (Nat × Bytes) → Option (Tbl × Option (List (Nat × Bytes)))
  | [], t, row => some (t, some row)
  | (k, v) :: kvs, t, row =>
    match aget (nmeq t.ci) t.nameId k with
    | some id => dictLoop fl kvs t (aput ideq row id v)
    | none =>
      if fl.ignore then dictLoop fl kvs t row
      else if fl.add then
        (insCol t t.cols.length k).bind fun
          | (t, none) => some (t, none)
          | (t, some id) => dictLoop fl kvs t (aput ideq row id v)
      else some (t, none)

/-- `formats/table/m_table.c:553-602`, `M_table_row_insert_dict_at`; the dictionary holds no null pointers. -/
def insDict (t : Tbl) (i : Nat) (kvs : List (Bytes × Bytes)) (fl : Flags) : Option (Tbl × Bool) :=
  if i > t.rows.length then some (t, false)
  else if kvs = [] then (insRow t i).map fun r => (r.1, r.2.isSome)
  else (dictLoop fl kvs t []).bind fun
    | (t, none) => some (t, false)
    | (t, some row) => (insRow t i).map fun
      | (t, none) => (t, false)
      | (t, some id) => ({ t with data := aput ideq t.data id row }, true)

/-- `formats/table/m_table.c:604-614`, `M_table_row_remove`. -/
def rmRow (t : Tbl) (i : Nat) : Tbl :=
  match t.rows[i]? with
  | none => t
  | some id => { t with rows := t.rows.take i ++ t.rows.drop (i + 1), data := adel ideq t.data id }

/-- `formats/table/m_table.c:628-637`: the loop of `M_table_row_remove_empty_rows` over the rows before `i`. -/
def rmEmptyRowsLoop : Nat → Tbl → Nat → Tbl × Nat
  | 0, t, cnt => (t, cnt)
  | i + 1, t, cnt =>
    match t.rows[i]? with
    | none => rmEmptyRowsLoop i t cnt
    | some id =>
      if (aget ideq t.data id).all (fun d => d.isEmpty) then
        rmEmptyRowsLoop i { t with rows := t.rows.take i ++ t.rows.drop (i + 1), data := adel ideq t.data id } (cnt + 1)
      else rmEmptyRowsLoop i t cnt

/-- `formats/table/m_table.c:616-640`, `M_table_row_remove_empty_rows`. -/
def rmEmptyRows (t : Tbl) : Tbl × Nat := rmEmptyRowsLoop t.rows.length t 0

/-- `formats/table/m_table.c:259-263`: the new cells of the row. -/
def setRow (d : List (Nat × Bytes)) (c : Nat) : Option Bytes → List (Nat × Bytes)
  | none => adel ideq d c
  | some v => aput ideq d c v

/-- `formats/table/m_table.c:250-264`, `M_table_cell_set_int`. -/
def setInt (t : Tbl) (r c : Nat) (v : Option Bytes) : Tbl :=
  { t with data := aput ideq t.data r (setRow ((aget ideq t.data r).getD []) c v) }

/-- `formats/table/m_table.c:651-674`, `M_table_cell_set`. -/
def set (t : Tbl) (row : Nat) (name : Bytes) (v : Option Bytes) (fl : Flags) : Option (Tbl × Bool) :=
  match t.rows[row]? with
  | none => some (t, false)
  | some r =>
    if name = [] then some (t, false)
    else match aget (nmeq t.ci) t.nameId name with
      | some c => some (setInt t r c v, true)
      | none =>
        if fl.ignore then some (t, true)
        else if fl.add then
          (insCol t t.cols.length name).map fun
            | (t, none) => (t, false)
            | (t, some c) => (setInt t r c v, true)
        else some (t, false)

/-- `formats/table/m_table.c:676-689`, `M_table_cell_set_at`. -/
def setAt (t : Tbl) (row col : Nat) (v : Option Bytes) : Tbl × Bool :=
  match t.rows[row]?, t.cols[col]? with
  | some r, some c => (setInt t r c v, true)
  | _, _ => (t, false)

/-- `formats/table/m_table.c:711-715`: the second loop of `M_table_cell_set_dict`. -/
def setDictLoop (row : Nat) (fl : Flags) : List (Bytes × Bytes) → Tbl → Option Tbl
  | [], t => some t
  | (k, v) :: kvs, t => (set t row k (some v) fl).bind fun r => setDictLoop row fl kvs r.1

/-- `formats/table/m_table.c:691-718`, `M_table_cell_set_dict`. -/
def setDict (t : Tbl) (row : Nat) (kvs : List (Bytes × Bytes)) (fl : Flags) : Option (Tbl × Bool) :=
  if !(fl.ignore || fl.add) && kvs.any fun p => (aget (nmeq t.ci) t.nameId p.1).isNone then some (t, false)
  else (setDictLoop row fl kvs t).map fun t => (t, true)

/-- `formats/table/m_table.c:266-273`, `M_table_cell_get_int`. -/
def getInt (t : Tbl) (r c : Nat) : Option Bytes := (aget ideq t.data r).bind fun d => aget ideq d c

/-- `formats/table/m_table.c:730-743`, `M_table_cell`. -/
def cell (t : Tbl) (row : Nat) (name : Bytes) : Option Bytes :=
  match t.rows[row]? with
  | none => none
  | some r => if name = [] then none else (aget (nmeq t.ci) t.nameId name).bind (getInt t r)

/-- `formats/table/m_table.c:745-757`, `M_table_cell_at`. -/
def cellAt (t : Tbl) (row col : Nat) : Option Bytes :=
  match t.rows[row]?, t.cols[col]? with
  | some r, some c => getInt t r c
  | _, _ => none

/-- A comparison function for values. -/
abbrev Cmp := Bytes → Bytes → Int

/-- `formats/table/m_table.c:107-118`: the secondary comparison. -/
def second (r : Int) (a b : Bytes) : Option Cmp → Int
  | none => r
  | some p2 => if r = 0 then p2 a b else r

/-- `formats/table/m_table.c:76-119`, `table_coldata_compar`. -/
def rowCmp (t : Tbl) (c1 c2 : Nat) (p1 : Cmp) (p2 : Option Cmp) (a b : Nat) : Int :=
  second (p1 ((getInt t a c1).getD []) ((getInt t b c1).getD [])) ((getInt t a c2).getD []) ((getInt t b c2).getD []) p2

/-- `formats/table/m_table.c:132-179`, `M_table_column_sort_data_int`; a null comparison function is replaced by one of the
comparison functions for strings, which is not modelled. -/
def sortInt (t : Tbl) (c1 c2 : Nat) (p1 : Cmp) (p2 : Option Cmp) : Option Tbl :=
  (Qsort.qsort (rowCmp t c1 c2 p1 p2) t.rows.toArray).map fun a => { t with rows := a.toList }

/-- `formats/table/m_table.c:378-396`, `M_table_column_sort_data`. -/
def sort (t : Tbl) (name : Bytes) (p1 : Cmp) (name2 : Bytes) (p2 : Option Cmp) : Option Tbl :=
  if name = [] then some t
  else match aget (nmeq t.ci) t.nameId name with
    | none => some t
    | some c1 =>
      if name2 = [] then sortInt t c1 0 p1 p2
      else match aget (nmeq t.ci) t.nameId name2 with
        | none => some t
        | some c2 => sortInt t c1 c2 p1 p2

/-- `formats/table/m_table.c:398-409`, `M_table_column_sort_data_at`; the element of a list after its end is 0. -/
def sortAt (t : Tbl) (i : Nat) (p1 : Cmp) (j : Nat) (p2 : Option Cmp) : Option Tbl :=
  if i ≤ t.cols.length ∨ j ≤ t.cols.length then some t
  else sortInt t (t.cols[i]?.getD 0) (t.cols[j]?.getD 0) p1 p2

/-- `formats/table/m_table.c:411-447`, `M_table_column_order` with a comparison function. -/
def order (t : Tbl) (p : Cmp) : Option Tbl :=
  (Qsort.qsort (fun a b => p ((aget ideq t.idName a).getD []) ((aget ideq t.idName b).getD [])) t.cols.toArray).map fun a =>
    { t with cols := a.toList }

end Verif.Table
