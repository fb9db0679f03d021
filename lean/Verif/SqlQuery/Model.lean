import Verif.Str.Model
import Verif.Dict.Model
/- Model of the preparation and execution of SQL statements: the checks on the text of a query and the bound rows, the
rewriting of the text for a database, and the execution of the bound rows in batches (`sql/m_sql_stmt.c:72-372`,
`sql/m_sql_driver_helper.c:32-190`, `367-397` and the row counts of the drivers).  A query is the list of its bytes and holds no
zero byte.  Allocation does not fail.  The statement cache, the connection and the server are not modelled: what a driver answers to
a request is a parameter. -/
namespace Verif.SqlQuery
open Verif.Chr (isSpace)

/- Rewriting the text -/

/-- `sql/m_sql_driver_helper.c:32-58`, `M_sql_chr_nospaceneeded`: white space and `( ) , = + - % & | ^ / > < !`. -/
def noSpaceNeeded (c : UInt8) : Bool :=
  isSpace c || c == 40 || c == 41 || c == 44 || c == 61 || c == 43 || c == 45 || c == 37 || c == 38 || c == 124 || c == 94 ||
    c == 47 || c == 62 || c == 60 || c == 33

/-- `sql/m_sql_driver_helper.c:80-98`: the loop over the text.  `prev` is the byte kept last, `minimized_query[i-offset-1]`
(`i-offset` is the number of the bytes kept).  Bytes behind `i` are not yet overwritten; behind the last one is the terminator. -/
def squeeze : Option UInt8 → List UInt8 → List UInt8
  | _, [] => []
  | prev, c :: r =>
    if isSpace c && (noSpaceNeeded (r.headD 0) || prev.any noSpaceNeeded) then squeeze prev r
    else if isSpace c then 32 :: squeeze (some 32) r
    else c :: squeeze (some c) r

/-- `sql/m_sql_driver_helper.c:69-98`: the text without unneeded white space; `none` is the error of line 72. -/
def minimize (q : List UInt8) : Option (List UInt8) :=
  if Str.trim q = [] then none else some (squeeze none (Str.trim q))

/-- `VALUES(` and `VALUES`, `INSERT`, `CREATE TABLE`, ` ON CONFLICT DO NOTHING`. -/
def valuesParen : List UInt8 := [86, 65, 76, 85, 69, 83, 40]
def insertWord : List UInt8 := [73, 78, 83, 69, 82, 84]
def createTable : List UInt8 := [67, 82, 69, 65, 84, 69, 32, 84, 65, 66, 76, 69]
def onConflict : List UInt8 := [32, 79, 78, 32, 67, 79, 78, 70, 76, 73, 67, 84, 32, 68, 79, 32, 78, 79, 84, 72, 73, 78, 71]

/-- `sql/m_sql_driver_helper.c:121-131`: the loop that looks for the closing parenthesis with `n` parentheses open; the bytes
passed and the rest.  `none` is the error of line 128. -/
def closeParen : Nat → List UInt8 → Option (List UInt8 × List UInt8)
  | 0, s => some ([], s)
  | _ + 1, [] => none
  | n + 1, c :: s => (closeParen (if c = 40 then n + 2 else if c = 41 then n else n + 1) s).map fun r => (c :: r.1, r.2)

/-- `sql/m_sql_driver_helper.c:135-139`: the loop that writes the group, from index `i` on with `left` to go. -/
def copies (g : List UInt8) : Nat → Nat → List UInt8
  | _, 0 => []
  | i, left + 1 => (if i ≠ 0 then [44] else []) ++ g ++ copies g (i + 1) left

/-- `sql/m_sql_driver_helper.c:105-143`: one group of values for every row. -/
def expand (q : List UInt8) (rows : Nat) : Option (List UInt8) :=
  (Str.casestr q valuesParen).bind fun k =>
    (closeParen 1 (q.drop (k + 7))).map fun r => q.take (k + 6) ++ copies (40 :: r.1) 0 rows ++ r.2

/-- `M_buf_add_uint`, `base/data/m_buf.c:544-553`: the decimal digits (the C library's `snprintf` with `%llu`). -/
def digits (n : Nat) : List UInt8 :=
  if n < 10 then [UInt8.ofNat (48 + n)] else digits (n / 10) ++ [UInt8.ofNat (48 + n % 10)]

/-- `sql/m_sql_driver_helper.c:150-161`: every `?` becomes the sigil and its number. -/
def number (sigil : UInt8) : Nat → List UInt8 → List UInt8
  | _, [] => []
  | id, c :: r => if c = 63 then sigil :: digits id ++ number sigil (id + 1) r else c :: number sigil id r

/-- `M_sql_driver_queryformat_flags_t`, `include/mstdlib/sql/m_sql_driver.h:395-411`. -/
structure Flags where
  terminator : Bool := false
  dollar : Bool := false
  colon : Bool := false
  multiValue : Bool := false
  onConflict : Bool := false
deriving DecidableEq

/-- `sql/m_sql_driver_helper.c:104-144`. -/
def fmtValues (f : Flags) (rows : Nat) (q : List UInt8) : Option (List UInt8) :=
  if f.multiValue ∧ rows > 1 then expand q rows else some q

/-- `sql/m_sql_driver_helper.c:146-164`. -/
def fmtParams (f : Flags) (params : Nat) (q : List UInt8) : List UInt8 :=
  if (f.dollar || f.colon) ∧ params ≠ 0 then number (if f.dollar then 36 else 58) 1 q else q

/-- `sql/m_sql_driver_helper.c:166-171`. -/
def fmtConflict (f : Flags) (q : List UInt8) : List UInt8 :=
  if f.onConflict ∧ Str.eqMaxInt true q insertWord 6 then q ++ onConflict else q

/-- `sql/m_sql_driver_helper.c:173-179`. -/
def fmtTerm (f : Flags) (q : List UInt8) : List UInt8 := if f.terminator then q ++ [59] else q

/-- `sql/m_sql_driver_helper.c:60-190`, `M_sql_driver_queryformat`. -/
def queryformat (q : List UInt8) (f : Flags) (params rows : Nat) : Option (List UInt8) :=
  (minimize q).bind fun m => (fmtValues f rows m).map fun v => fmtTerm f (fmtConflict f (fmtParams f params v))

/- Checking the text -/

/-- The errors of `include/mstdlib/sql/m_sql.h` used here. -/
inductive Err
  | invalidUse | prepareInvalid | strNotBound | noMultiQuery | notPrepared | wrongNumParams | queryPrepare | constraint | other (code : Nat)
deriving DecidableEq

/-- `sql/m_sql_stmt.c:92-116`: the loop of `M_sql_stmt_prepare_query`; `cnt` are the placeholders so far. -/
def checkLoop (isCreate skip : Bool) : Nat → List UInt8 → Except Err Nat
  | cnt, [] => .ok cnt
  | cnt, c :: r =>
    if c = 39 then if !isCreate && !skip then .error .strNotBound else checkLoop isCreate skip cnt r
    else if c = 59 then if r ≠ [] ∧ skip = false then .error .noMultiQuery else checkLoop isCreate skip cnt r
    else if c = 63 then checkLoop isCreate skip (cnt + 1) r
    else if !Dict.isPrint c && !skip then .error .prepareInvalid
    else checkLoop isCreate skip cnt r

/-- `sql/m_sql_stmt.c:72-120`, `M_sql_stmt_prepare_query`: the number of the placeholders. -/
def prepareQuery (q : List UInt8) (skip : Bool) : Except Err Nat :=
  if q = [] then .error .prepareInvalid else checkLoop (Str.eqMaxInt true q createTable 12) skip 0 q

/-- `sql/m_sql_stmt.c:123-145`, `M_sql_stmt_prepare` of a statement that is not shared in a group: the text kept and the number of its
placeholders. -/
def prepare (q : List UInt8) (skip : Bool) : Except Err (List UInt8 × Nat) :=
  if q = [] then .error .invalidUse else (prepareQuery (Str.trim q) skip).map (Str.trim q, ·)

/- The drivers -/

/-- A driver, with the limits it asks the database or its profile for. -/
inductive Driver
  | mysql
  | sqlite (maxParams maxCompound : Int)
  | pgsql
  | odbc (multiValue conflict : Bool) (maxRows maxParams : Nat)
  | oracle

/-- `sql/mysql/mstdlib_sql_mysql.c:405-431`, `mysql_num_process_rows` (`max_rows` is 0 there). -/
def mysqlRows (params rows : Nat) : Nat :=
  if rows = 1 then rows
  else if params = 0 then 1
  else if 65535 / params = 0 then 1
  else min rows (65535 / params)

/-- `sql/sqlite/mstdlib_sql_sqlite.c:509-544`, `sqlite_num_process_rows`. -/
def sqliteRows (maxParams maxCompound : Int) (params rows : Nat) : Nat :=
  if rows = 1 then rows
  else if params = 0 then 1
  else if maxParams ≤ 0 then 1
  else if maxCompound ≤ 0 then 1
  else if maxParams.toNat / params = 0 then 1
  else min rows (min maxCompound.toNat (maxParams.toNat / params))

/-- `sql/postgresql/mstdlib_sql_postgresql.c:325-329`, `pgsql_num_process_rows`. -/
def pgsqlRows (rows : Nat) : Nat := min rows 100

/-- `sql/odbc/mstdlib_sql_odbc.c:754-785`, `odbc_num_process_rows`. -/
def odbcRows (multiValue : Bool) (maxRows maxParams params rows : Nat) : Nat :=
  if multiValue = false then if maxRows ≠ 0 ∧ rows > maxRows then maxRows else rows
  else if rows = 1 then rows
  else if params = 0 then 1
  else
    let rows := if maxRows ≠ 0 ∧ rows > maxRows then maxRows else rows
    if maxParams / params = 0 then 1 else min rows (maxParams / params)

/-- The number of rows a driver sends at once: the functions above; `sql/oracle/mstdlib_sql_oracle.c:465-470` and `1186` for Oracle. -/
def processRows : Driver → Nat → Nat → Nat
  | .mysql, p, r => mysqlRows p r
  | .sqlite mp mc, p, r => sqliteRows mp mc p r
  | .pgsql, _, r => pgsqlRows r
  | .odbc mv _ mr mp, p, r => odbcRows mv mr mp p r
  | .oracle, _, r => r

/-- The flags of `cb_queryformat`: `sql/mysql/mstdlib_sql_mysql.c:437`, `sql/sqlite/mstdlib_sql_sqlite.c:549`,
`sql/postgresql/mstdlib_sql_postgresql.c:342`, `sql/odbc/mstdlib_sql_odbc.c:815-821`, `sql/oracle/mstdlib_sql_oracle.c:459`. -/
def flagsOf : Driver → Flags
  | .mysql => { multiValue := true }
  | .sqlite _ _ => { multiValue := true }
  | .pgsql => { multiValue := true, dollar := true, onConflict := true }
  | .odbc mv oc _ _ => { multiValue := mv, onConflict := oc }
  | .oracle => { colon := true }

/- Execution -/

/-- A bound value: its type (`M_sql_data_type_t`, 0 is unknown) and what it holds. -/
structure Value where
  type : Nat
  data : Nat
deriving DecidableEq

/-- `sql/m_sql_driver_helper.c:367-378`, `M_sql_driver_stmt_bind_rows`. -/
def bindRows (rows : List (List Value)) (offset : Nat) : Nat := if offset > rows.length then 0 else rows.length - offset

/-- `sql/m_sql_driver_helper.c:381-386`, `M_sql_driver_stmt_bind_cnt`. -/
def bindCnt : List (List Value) → Nat
  | [] => 0
  | r :: _ => r.length

/-- `sql/m_sql_driver_helper.c:389-397`, `M_sql_driver_stmt_bind_get_type`, and the other functions that read a bound value:
`none` if the position is refused or outside the row. -/
def bindGet (rows : List (List Value)) (offset row idx : Nat) : Option Value :=
  if row ≥ bindRows rows offset ∨ idx ≥ bindCnt rows then none else (rows[row + offset]?).bind (·[idx]?)

/-- The loops over the columns of a row and over the rows of a batch, `sql/sqlite/mstdlib_sql_sqlite.c:608-645`,
`sql/mysql/mstdlib_sql_mysql.c:506-564`, `sql/postgresql/mstdlib_sql_postgresql.c:473-533`: the values in the order of their
parameters.  (The drivers that bind arrays, Oracle and some profiles of ODBC, hand over the same values column by column.) -/
def bindAll (rows : List (List Value)) (offset n : Nat) : List (List (Option Value)) :=
  (List.range n).map fun row => (List.range (bindCnt rows)).map fun i => bindGet rows offset row i

/-- What is sent to the database: the text and the values of every row. -/
structure Request where
  text : List UInt8
  vals : List (List (Option Value))
deriving DecidableEq

/-- What the loop did: the requests sent, and the outcome; `hang` is a loop that does not end. -/
inductive Result
  | done
  | error (e : Err)
  | hang
deriving DecidableEq

/-- `sql/m_sql_stmt.c:221-256`: the loop of `M_sql_conn_execute_rows`, with the answers of the driver (prepare and execute together)
as a function of the requests sent before and the request; `none` is success.  A request that fails in the driver may
have had an effect or not, so it is in the list as well. -/
def executeLoop (d : Driver) (q : List UInt8) (params : Nat) (rows : List (List Value)) (answer : List Request → Request → Option Err) :
    Nat → Nat → List Request → List Request × Result
  | 0, _, log => (log, .hang)
  | fuel + 1, offset, log =>
    match queryformat q (flagsOf d) params (processRows d params (bindRows rows offset)) with
    | none => (log, .error .queryPrepare)
    | some text =>
      let n := processRows d (bindCnt rows) (bindRows rows offset)
      let req : Request := ⟨text, bindAll rows offset n⟩
      match answer log req with
      | some e => (log ++ [req], .error e)
      | none =>
        if bindRows rows (offset + n) ≠ 0 then executeLoop d q params rows answer fuel (offset + n) (log ++ [req])
        else (log ++ [req], .done)

/-- `sql/m_sql_stmt.c:210-260`, `M_sql_conn_execute_rows`. -/
def executeRows (d : Driver) (q : List UInt8) (params : Nat) (rows : List (List Value)) (answer : List Request → Request → Option Err) :
    List Request × Result :=
  executeLoop d q params rows answer (rows.length + 1) 0 []

/-- `sql/m_sql_stmt.c:282-286`: a blank row at the end is dropped. -/
def dropBlank (rows : List (List Value)) : List (List Value) :=
  if rows.getLast? = some [] then rows.dropLast else rows

/-- `sql/m_sql_stmt.c:324-332`: the loop over the rows that compares the types of one column; `type` is the type in the row
before. -/
def typesLoop (i : Nat) : Nat → List (List Value) → Bool
  | _, [] => true
  | type, r :: rs =>
    let mytype := (r[i]?.map Value.type).getD 0
    if type ≠ 0 ∧ mytype ≠ type then false else typesLoop i mytype rs

/-- `sql/m_sql_stmt.c:296-334`: the checks of the bound rows. -/
def checkRows (params : Nat) (rows : List (List Value)) : Except Err Unit :=
  match rows with
  | [] => if params ≠ 0 then .error .wrongNumParams else .ok ()
  | r :: rs =>
    if params ≠ r.length then .error .wrongNumParams
    else if rs.any (·.length ≠ r.length) then .error .wrongNumParams
    else if rs ≠ [] ∧ (List.range r.length).any (fun i => !typesLoop i 0 (r :: rs)) then .error .prepareInvalid
    else .ok ()

/-- `sql/m_sql_stmt.c:263-372`, `M_sql_conn_execute`, up to the fetching of results. -/
def execute (d : Driver) (q : List UInt8) (params : Nat) (rows : List (List Value)) (answer : List Request → Request → Option Err) :
    List Request × Result :=
  if q = [] then ([], .error .notPrepared)
  else match checkRows params (dropBlank rows) with
    | .error e => ([], .error e)
    | .ok () => executeRows d q params (dropBlank rows) answer

/-- `sql/postgresql/mstdlib_sql_postgresql.c:724-737`: the end of `pgsql_cb_execute` for a statement without results that the server
executed and that affected `affected` rows. -/
def pgsqlOutcome (text : List UInt8) (affected bound : Nat) : Option Err :=
  if Str.eqMaxInt true text insertWord 6 ∧ affected ≠ pgsqlRows bound then some .constraint else none

end Verif.SqlQuery
