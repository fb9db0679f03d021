import Verif.Bithacks.Model
import Verif.Table.Model

/-!
# Tags and lines of the log: `log/m_log.c`, `log/m_log_membuf.c`

Hash tables are the association lists of `Verif.Table.Model`.  Not modelled: null pointers, locks, the modules other than the one that
keeps messages in memory, what time stamps and prefixes look like, and the callback for modules that have expired.
-/

namespace Verif.LogTags
open Verif Verif.Table

/-- `log/m_log.c:229-233`, `M_log_all_tags_lt`. -/
def tagsLt (tag : Nat) : Nat :=
  let t := Bithacks.roundDown64 tag
  if t = 0 then 0 else t - 1

/-- `log/m_log.c:236-240`, `M_log_all_tags_lte`. -/
def tagsLte (tag : Nat) : Nat :=
  let t := Bithacks.roundDown64 tag
  if t = 0 then 0 else (t - 1) ||| t

/-- `log/m_log.c:243-246`, `M_log_all_tags_gt`. -/
def tagsGt (tag : Nat) : Nat := tagsLte tag ^^^ (2 ^ 64 - 1)

/-- `log/m_log.c:249-252`, `M_log_all_tags_gte`. -/
def tagsGte (tag : Nat) : Nat := tagsLt tag ^^^ (2 ^ 64 - 1)

/-- The fields of `M_log_t` for the names of tags: `tag_to_name`, `name_to_tag` and `max_name_width`. -/
structure Log where
  toName : List (Nat × Bytes)
  toTag : List (Bytes × Nat)
  width : Nat
deriving DecidableEq

/-- `log/m_log.c:292-306`, `M_log_create`: those fields. -/
def create : Log := ⟨[], [], 0⟩

inductive Res where
  | ok
  | badTag
  | dup
deriving DecidableEq

/-- `log/m_log.c:442-453`: the longest name. -/
def longest (l : List (Nat × Bytes)) : Nat := l.foldl (fun w p => if p.2.length > w then p.2.length else w) 0

/-- `log/m_log.c:403-475`, `M_log_set_tag_name`; `none` if freed memory is read: the old name is a pointer into the hash table, line 438
removes it there, which frees it (`base/hash/m_hash_u64str.c:106-109`), and line 441 takes its length. -/
def setName (l : Log) (tag : Nat) (name : Bytes) : Option (Log × Res) :=
  if Bithacks.isPow64 tag = false then some (l, .badTag)
  else if (match aget (nmeq true) l.toTag name with
    | some o => o != tag
    | none => false) then some (l, .dup)
  else
    let old := aget ideq l.toName tag
    let toTag := match old with
      | some o => adel (nmeq true) l.toTag o
      | none => l.toTag
    if name = [] then
      match old with
      | some _ => none
      | none =>
        let toName := adel ideq l.toName tag
        some (⟨toName, toTag, if 0 ≥ l.width then longest toName else l.width⟩, .ok)
    else
      some (⟨aput ideq l.toName tag name, aput (nmeq true) toTag name tag, if name.length > l.width then name.length else l.width⟩, .ok)

/-- `log/m_log.c:478-495`, `M_log_get_tag_name`. -/
def getName (l : Log) (tag : Nat) : Option Bytes := if Bithacks.isPow64 tag = false then none else aget ideq l.toName tag

/-- `log/m_log.c:498-515`, `M_log_get_tag`. -/
def getTag (l : Log) (name : Bytes) : Nat := if name = [] then 0 else (aget (nmeq true) l.toTag name).getD 0

/-- `M_str_find_first_from_charset` with the line ends. -/
def isEnd (c : UInt8) : Bool := c == 13 || c == 10

/-- `log/m_log.c:627-705`: the lines of a message.  The first argument bounds the number of turns. -/
def linesGo : Nat → Bytes → List Bytes
  | 0, _ => []
  | n + 1, msg => if msg = [] then [] else
      msg.takeWhile (fun c => !isEnd c) :: linesGo n ((msg.dropWhile fun c => !isEnd c).dropWhile isEnd)

/-- The same: each turn uses up at least one byte. -/
def lines (msg : Bytes) : List Bytes := linesGo msg.length msg

/-- `log/m_log.c:640-651`: what is before the prefix, after the time. -/
def tagPart (l : Log) (pad : Bool) (tag : Nat) : Bytes :=
  let name := (aget ideq l.toName tag).getD []
  if name.length > 0 then
    [32, 91] ++ name ++ [93] ++ (if pad && decide (name.length < l.width) then List.replicate (l.width - name.length) 32 else [])
  else []

/-- `log/m_log.c:88-101`, `buf_trim_end`. -/
def trimEnd (b : Bytes) : Bytes := (b.reverse.dropWhile Chr.isSpace).reverse

/-- `log/m_log.c:637-665`: what is passed on for a line.  `time` and `pre` are what the time stamp and the prefix are. -/
def fmt (l : Log) (pad : Bool) (time pre ending : Bytes) (tag : Nat) (ln : Bytes) : Bytes :=
  trimEnd (time ++ tagPart l pad tag ++ pre ++ ln) ++ ending

/-- `M_log_module_t`: the tags it accepts, what its check and its filter say during the call, and what was written to it. -/
structure Mod where
  tags : Nat
  alive : Bool
  accepts : Bool
  got : List Bytes
deriving DecidableEq

/-- `log/m_log.c:33-46`, `M_log_check_tag_used`. -/
def tagUsed (ms : List Mod) (tag : Nat) : Bool := ms.any fun m => m.tags &&& tag != 0

/-- `log/m_log.c:668-701`: a line is passed on to the modules; also whether one has expired. -/
def passOn (tag : Nat) (b : Bytes) : List Mod → List Mod × Bool
  | [] => ([], false)
  | m :: ms =>
    let r := passOn tag b ms
    if m.tags &&& tag = 0 then (m :: r.1, r.2)
    else if m.alive = false then (m :: r.1, true)
    else if m.accepts = false then (m :: r.1, r.2)
    else ({ m with got := m.got ++ [b] } :: r.1, r.2)

/-- `log/m_log.c:629-705`: all lines. -/
def passLines (tag : Nat) : List Bytes → List Mod × Bool → List Mod × Bool
  | [], s => s
  | b :: bs, s => passLines tag bs ((passOn tag b s.1).1, s.2 || (passOn tag b s.1).2)

/-- `log/m_log.c:586-740`, `M_log_write`, with a time format that is valid.  Simplified: every module has a function that
writes (line 677); the check and the filter of a module and the prefix are the same throughout the call; and no text has a zero byte, as
the functions that write get a C string (line 700). -/
def write (l : Log) (pad : Bool) (time pre ending : Bytes) (tag : Nat) (msg : Bytes) (ms : List Mod) : List Mod × Res :=
  if Bithacks.isPow64 tag = false then (ms, .badTag)
  else if tagUsed ms tag = false then (ms, .ok)
  else
    let r := passLines tag ((lines msg).map (fmt l pad time pre ending tag)) (ms, false)
    (if r.2 then r.1.filter (·.alive) else r.1, .ok)

/-- `log/m_log_membuf.c:31-37`, `module_thunk_t`. -/
structure Mem where
  buf : Bytes
  max : Nat
  ms : Nat
deriving DecidableEq

/-- `log/m_log_membuf.c:125-143`, `M_log_module_add_membuf`; the time in seconds. -/
def addMem (size s : Nat) : Mem := ⟨[], size, (if s > (2 ^ 64 - 1) / 1000 then (2 ^ 64 - 1) / 1000 else s) * 1000 % 2 ^ 64⟩

/-- `log/m_log_membuf.c:56-82`, `log_write_cb`. -/
def memWrite (m : Mem) (msg : Bytes) : Mem :=
  if msg.length = 0 then m
  else if m.buf.length > m.max then m
  else { m with buf := m.buf ++ msg }

/-- `log/m_log_membuf.c:85-103`, `log_check_cb`, with the milliseconds since the module was added. -/
def memCheck (m : Mem) (elapsed : Nat) : Bool := if elapsed > m.ms then false else true

end Verif.LogTags
