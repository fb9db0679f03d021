import Verif.TableMerge.Model
import Verif.Json.Model

/-!
# Tables as JSON: `formats/table/m_table_json.c`

JSON text and documents are those of `Verif.Json`.  Not modelled: null pointers for the table.
-/

namespace Verif.TableJson
open Verif Verif.Table Verif.TableMerge
open Verif.Json (Json)

/-- `formats/table/m_table_json.c:71-84`, `M_table_load_json`: the members of one object.  The value of a member is looked up by
its name (`formats/json/m_json.c:267-270`), which gives its own value since the names in an object differ. -/
def loadObj (row : Nat) : List (Bytes × Json) → Tbl → Option (Tbl × Bool)
  | [], t => some (t, true)
  | (k, .str v) :: ms, t => (set t row k (some v) ⟨true, false⟩).bind fun x => if x.2 then loadObj row ms x.1 else some x
  | _ :: _, t => some (t, false)

/-- `formats/table/m_table_json.c:62-87`: the elements of the array. -/
def loadArr : List Json → Tbl → Option (Tbl × Bool)
  | [], t => some (t, true)
  | .obj ms :: l, t => (insRow t t.rows.length).bind fun x => (loadObj t.rows.length ms x.1).bind fun y =>
      if y.2 then loadArr l y.1 else some y
  | _ :: _, t => some (t, false)

/-- `formats/table/m_table_json.c:56-95`: a document into a table; `rs` are the random numbers of the table made here. -/
def loadNode (t : Tbl) (rs : List Nat) : Json → Option (Tbl × Bool)
  | .arr l => (loadArr l (create false rs)).bind fun x => if x.2 then merge t x.1 else some (t, false)
  | _ => some (t, false)

/-- `formats/table/m_table_json.c:32-96`, `M_table_load_json`; `after` is what follows the text in memory. -/
def loadJson (t : Tbl) (rs : List Nat) (after data : List UInt8) : Option (Tbl × Bool) :=
  match Json.read { uniqueKeys := true } true after data with
  | none => none
  | some (.error _) => some (t, false)
  | some (.ok (j, _)) => loadNode t rs j

/-- `formats/table/m_table_json.c:99-141`, `M_table_create_json`.  The names in a table differ, so that a member is never put in
place of another. -/
def createJson (t : Tbl) : Option Json :=
  if unnamed t then none
  else some (.arr ((List.range t.rows.length).map fun i =>
    .obj ((pairs t i).filterMap fun p => p.2.map fun v => (p.1.getD [], .str v))))

/-- `formats/table/m_table_json.c:144-155`, `M_table_write_json`: undefined, NULL, or the text. -/
def writeJson (t : Tbl) (fl : Json.WFlags) : Option (Option (List UInt8)) :=
  match createJson t with
  | none => some none
  | some j => Json.write fl 0 j

end Verif.TableJson
