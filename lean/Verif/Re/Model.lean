import Verif.Utf8.Model
/-! Model of matching a compiled regular expression: `text/re/mtre/regexec.c` and the callers in `text/re/m_re.c`.

Parsing a pattern and building the automaton (`text/re/mtre/regcomp.c`) is not modelled here: everything below is for an
arbitrary automaton. -/
namespace Verif.Re

/-- `text/re/mtre/tre.h:109-121`, `struct tnfa_transition`.  A destination is a pointer into the array of transitions and the
number of the state it belongs to; the compiler sets both together (`regcomp.c:2671-2672`), so the model keeps the number. -/
structure Trans where
  lo : Int
  hi : Int
  dst : Nat
  tags : List Nat
  asr : Nat
deriving DecidableEq, Repr

/-- `text/re/mtre/tre.h:132-139`, `struct tre_submatch_data`. -/
structure Sub where
  so : Nat
  eo : Nat
  parents : List Nat
deriving DecidableEq, Repr

/-- `text/re/mtre/tre.h:147-163`, `struct tnfa`: the transitions leaving each state, the initial ones, the state of
`final_trans`, the directions of the tags (whether the smaller value wins) and the pairs in `minimal_tags`. -/
structure Tnfa where
  trans : List (List Trans)
  initial : List Trans
  final : Nat
  numTags : Nat
  small : List Bool
  minimals : List (Nat × Nat)
  subs : List Sub
  endTag : Nat
  multiline : Bool
deriving DecidableEq, Repr

/-- The transitions leaving a state.  The arrays end in a transition without destination. -/
def Tnfa.out (t : Tnfa) (q : Nat) : List Trans := (t.trans[q]?).getD []

/-- The subject as `GET_NEXT_WCHAR` (`text/re/mtre/regexec.c:87-99`) delivers it: the end, bytes that do not decode, a read
outside the string, or a code point of some width followed by the rest. -/
inductive Text
  | eos
  | bad
  | ub
  | ch (cp width : Nat) (rest : Text)
deriving DecidableEq, Repr

/-- `text/re/mtre/regexec.c:87-99`: reading on from a place in the subject. -/
def scan : Nat → List UInt8 → Text
  | 0, _ => .ub
  | n + 1, s =>
    match s with
    | [] => .ub
    | b :: _ =>
      if b = 0 then .eos
      else match Utf8.getCp s with
        | none => .ub
        | some (.error _) => .bad
        | some (.ok (cp, rest)) => .ch cp (s.length - rest.length) (scan n rest)

/-- `next_c` after a read. -/
def Text.next : Text → Nat
  | .ch c _ _ => c
  | _ => 0

/-- Where the matcher stands: `pos`, `prev_c` and `next_c`. -/
structure At where
  pos : Nat
  prev : Nat
  next : Nat
deriving DecidableEq, Repr

/-- Which code points `IS_WORD_CHAR` (`text/re/mtre/regexec.c:101`) holds of: the underscore and what `M_utf8_isalnum_cp`
accepts, whose tables are not modelled. -/
def isWord (alnum : Nat → Bool) (c : Nat) : Bool := c == 95 || alnum c

/-- `text/re/mtre/regexec.c:103-119`, `CHECK_ASSERTIONS`: true when one of the assertions does *not* hold. -/
def checkAsr (alnum : Nat → Bool) (ml : Bool) (x : At) (a : Nat) : Bool :=
  (a.testBit 0 && (decide (x.pos > 0) && (x.prev != 10 || !ml)))
  || (a.testBit 1 && (x.next != 0 && (x.next != 10 || !ml)))
  || (a.testBit 4 && (isWord alnum x.prev || !isWord alnum x.next))
  || (a.testBit 5 && (!isWord alnum x.prev || isWord alnum x.next))
  || (a.testBit 6 && (x.pos != 0 && x.next != 0 && isWord alnum x.prev == isWord alnum x.next))
  || (a.testBit 7 && (x.pos == 0 || x.next == 0 || isWord alnum x.prev != isWord alnum x.next))

/-- `text/re/mtre/regexec.c:289`, `:392`: may the transition be taken? -/
def asrOk (alnum : Nat → Bool) (ml : Bool) (x : At) (a : Nat) : Bool := !(a != 0 && checkAsr alnum ml x a)

/-- `text/re/mtre/regexec.c:123-148`, `tre_tag_order`: does `t1` win over `t2`? -/
def tagOrder : List Bool → List Int → List Int → Bool
  | d :: ds, a :: t1, b :: t2 =>
    if d then
      if a < b then true else if a > b then false else tagOrder ds t1 t2
    else
      if a > b then true else if a < b then false else tagOrder ds t1 t2
  | _, _, _ => false

/-- `text/re/mtre/regexec.c:171-174`, `tre_tnfa_reach_t`. -/
structure Ent where
  st : Nat
  tags : List Int
deriving DecidableEq, Repr

/-- `match_eo` (when it is not -1), `match_tags` and `new_match`. -/
structure Best where
  eo : Option Nat
  tags : List Int
  fresh : Bool
deriving DecidableEq, Repr

/-- `text/re/mtre/regexec.c:299-307`, `:401-409`: the tags of a transition are set to the position. -/
def setTags (pos : Nat) : List Nat → List Int → List Int
  | [], tg => tg
  | k :: ks, tg => setTags pos ks (if k < tg.length then tg.set k pos else tg)

/-- Has the state been reached at this position?  `reach_pos[id].pos` holds the last position at which the state was put in
`reach_next`, and positions grow with every character, so `reach_pos[id].pos < pos` says that it is not in the list. -/
def has (r : List Ent) (q : Nat) : Bool := r.any fun e => e.st == q

/-- `*reach_pos[id].tags`. -/
def tagsOf (r : List Ent) (q : Nat) : List Int :=
  match r.find? fun e => e.st == q with
  | some e => e.tags
  | none => []

/-- `*reach_pos[id].tags = tags`. -/
def putTags (r : List Ent) (q : Nat) (tg : List Int) : List Ent :=
  r.map fun e => if e.st == q then { e with tags := tg } else e

/-- `text/re/mtre/regexec.c:287-323`: one initial transition. -/
def addInit1 (alnum : Nat → Bool) (t : Tnfa) (nt : Nat) (x : At) (acc : List Ent × Best) (tr : Trans) : List Ent × Best :=
  if has acc.1 tr.dst then acc
  else if !asrOk alnum t.multiline x tr.asr then acc
  else
    let tg := setTags x.pos tr.tags (List.replicate nt (-1))
    (acc.1 ++ [⟨tr.dst, tg⟩],
      if tr.dst = t.final then ⟨some x.pos, tg, true⟩ else acc.2)

/-- `text/re/mtre/regexec.c:285-325`: the initial states. -/
def addInit (alnum : Nat → Bool) (t : Tnfa) (nt : Nat) (x : At) (acc : List Ent × Best) : List Ent × Best :=
  t.initial.foldl (addInit1 alnum t nt x) acc

/-- `text/re/mtre/regexec.c:354-365`: is the entry behind the match found?  The tag `start` of a pair is smaller than `num_tags`
whenever `end` is, which the compiler ensures. -/
def behind (nt : Nat) (m : List Int) (tg : List Int) : List (Nat × Nat) → Bool
  | [] => false
  | (e, s) :: r =>
    if e ≥ nt then true
    else if tg.getD s 0 = m.getD s 0 ∧ tg.getD e 0 < m.getD e 0 then true
    else behind nt m tg r

/-- `text/re/mtre/regexec.c:345-382`: weeding. -/
def weed (t : Tnfa) (nt : Nat) (r : List Ent) (m : Best) : List Ent × Best :=
  if !t.minimals.isEmpty && m.fresh then
    (r.filter fun e => !behind nt m.tags e.tags t.minimals, { m with fresh := false })
  else (r, m)

/-- `text/re/mtre/regexec.c:411-453`: a path with tags `tg` has reached the destination of `tr`. -/
def arrive (t : Tnfa) (nt pos : Nat) (acc : List Ent × Best) (q : Nat) (tg : List Int) : List Ent × Best :=
  if !has acc.1 q then
    (acc.1 ++ [⟨q, tg⟩],
      if q = t.final ∧ (acc.2.eo = none ∨ (nt > 0 ∧ tg.getD 0 0 ≤ acc.2.tags.getD 0 0)) then ⟨some pos, tg, true⟩ else acc.2)
  else if tagOrder t.small tg (tagsOf acc.1 q) then
    (putTags acc.1 q tg, if q = t.final then ⟨some pos, tg, true⟩ else acc.2)
  else acc

/-- `text/re/mtre/regexec.c:390-454`: one transition leaving an entry of `reach`. -/
def visit (alnum : Nat → Bool) (t : Tnfa) (nt : Nat) (x : At) (acc : List Ent × Best) (c : List Int × Trans) : List Ent × Best :=
  if c.2.lo ≤ x.prev ∧ c.2.hi ≥ x.prev then
    if !asrOk alnum t.multiline x c.2.asr then acc
    else arrive t nt x.pos acc c.2.dst (setTags x.pos c.2.tags c.1)
  else acc

/-- `text/re/mtre/regexec.c:388-389`: the transitions in the order the two loops go through them. -/
def cands (t : Tnfa) (r : List Ent) : List (List Int × Trans) :=
  r.flatMap fun e => (t.out e.st).map fun tr => (e.tags, tr)

/-- `text/re/mtre/regexec.c:384-458`: reading one character. -/
def step (alnum : Nat → Bool) (t : Tnfa) (nt : Nat) (x : At) (r : List Ent) (m : Best) : List Ent × Best :=
  (cands t r).foldl (visit alnum t nt x) ([], m)

/-- How matching ends. -/
inductive Res
  | ok (eo : Nat) (tags : List Int)
  | nomatch
  | ub
deriving DecidableEq, Repr

/-- `text/re/mtre/regexec.c:461-462`. -/
def finish (m : Best) : Res :=
  match m.eo with
  | some e => .ok e m.tags
  | none => .nomatch

/-- `text/re/mtre/regexec.c:283-459`: the main loop, entered after a read; the text begins with `next_c`.  A read that fails
ends the matching at once (line 94); nothing the loop does between the read and the next pass can be seen then. -/
def go (alnum : Nat → Bool) (t : Tnfa) (nt : Nat) : Text → Nat → Nat → List Ent → Best → Res
  | .bad, _, _, _, _ => .nomatch
  | .ub, _, _, _, _ => .ub
  | .eos, pos, prev, r, m =>
    if m.eo = none then finish (addInit alnum t nt ⟨pos, prev, 0⟩ (r, m)).2
    else finish m
  | .ch c w rest, pos, prev, r, m =>
    if m.eo ≠ none ∧ (nt = 0 ∨ r = []) then finish m
    else
      let a := if m.eo = none then addInit alnum t nt ⟨pos, prev, c⟩ (r, m) else (r, m)
      let b := weed t nt a.1 a.2
      let s := step alnum t nt ⟨pos + w, c, rest.next⟩ b.1 b.2
      go alnum t nt rest (pos + w) c s.1 s.2

/-- `text/re/mtre/regexec.c:182-467`, `tre_tnfa_run_parallel`, with `num_tags` as set in lines 211-215.  Memory runs out never;
offsets are not bounded. -/
def run (alnum : Nat → Bool) (t : Tnfa) (nt : Nat) (s : List UInt8) : Res :=
  go alnum t nt (scan (s.length + 1) s) 0 0 [] ⟨none, List.replicate nt (-1), false⟩

/-- `text/re/mtre/regexec.c:492-506`: one offset. -/
def offOf (t : Tnfa) (eo : Nat) (tags : Option (List Int)) (k : Nat) : Int :=
  if k = t.endTag then eo
  else match tags with
    | none => -1
    | some tg => tg.getD k 0

/-- `text/re/mtre/regexec.c:491-515`: the offsets of one submatch. -/
def subOf (t : Tnfa) (eo : Nat) (tags : Option (List Int)) (d : Sub) : Int × Int :=
  let so := offOf t eo tags d.so
  let e := offOf t eo tags d.eo
  if so = -1 ∨ e = -1 then (-1, -1) else (so, e)

/-- `text/re/mtre/regexec.c:522-526`: the parents of one submatch. -/
def inParents (pm : List (Int × Int)) : List Nat → Int × Int → Int × Int
  | [], v => v
  | p :: ps, v =>
    let w := pm.getD p (-1, -1)
    inParents pm ps (if v.1 < w.1 ∨ v.2 > w.2 then (-1, -1) else v)

/-- `text/re/mtre/regexec.c:518-530`: the second pass, which changes the array in place. -/
def nest (subs : List Sub) : Nat → Nat → List (Int × Int) → List (Int × Int)
  | 0, _, pm => pm
  | n + 1, i, pm =>
    match subs[i]? with
    | none => pm
    | some d => nest subs n (i + 1) (pm.set i (inParents pm d.parents (pm.getD i (-1, -1))))

/-- `text/re/mtre/regexec.c:475-538`, `tre_fill_pmatch` for a match that was found and `nmatch` not less than the number of
submatches: the entries up to that number.  (The remaining ones become -1.) -/
def fill (t : Tnfa) (eo : Nat) (tags : Option (List Int)) : List (Int × Int) :=
  nest t.subs t.subs.length 0 (t.subs.map (subOf t eo tags))

/-- `text/re/mtre/regexec.c:541-562`, `mregexec`: with `want` the submatches are asked for. -/
def exec (alnum : Nat → Bool) (t : Tnfa) (want : Bool) (s : List UInt8) : Option (Option (List (Int × Int))) :=
  let nt := if want then t.numTags else 0
  match run alnum t nt s with
  | .ub => none
  | .nomatch => some none
  | .ok eo tg => some (some (if want then fill t eo (if t.numTags > 0 then some tg else none) else []))

/-- One capture: the number of the submatch, its offset and its length. -/
structure Cap where
  idx : Nat
  off : Int
  len : Int
deriving DecidableEq, Repr

/-- `text/re/m_re.c:103-108`: which submatches are kept. -/
def caps : Nat → List (Int × Int) → List Cap
  | _, [] => []
  | i, (so, eo) :: r =>
    if (so = 0 ∧ eo = 0) ∨ so = -1 ∨ eo = -1 then caps (i + 1) r
    else ⟨i, so, eo - so⟩ :: caps (i + 1) r

/-- `text/re/m_re.c:77-113`, `M_re_search` with a place for the match, for patterns with less than 99 submatches.  `none`:
undefined behaviour; `some none`: no match. -/
def search (alnum : Nat → Bool) (t : Tnfa) (s : List UInt8) : Option (Option (List Cap)) :=
  match exec alnum t true s with
  | none => none
  | some none => some none
  | some (some pm) => some (some (caps 0 pm))

/-- `text/re/m_re_match.c:112-135`, `M_re_match_idx`. -/
def capIdx (m : List Cap) (i : Nat) : Option (Int × Int) :=
  match m.find? fun c => c.idx == i with
  | some c => some (c.off, c.len)
  | none => none

/-- `text/re/m_re.c:131`, `:161`: the offset and length are 0 when there is no entry. -/
def capIdx0 (m : List Cap) : Int × Int := (capIdx m 0).getD (0, 0)

/-- `text/re/m_re.c:115-140`, `M_re_eq_start`. -/
def eqStart (alnum : Nat → Bool) (t : Tnfa) (s : List UInt8) : Option Bool :=
  match search alnum t s with
  | none => none
  | some none => some false
  | some (some m) => some ((capIdx0 m).1 == 0)

/-- `M_str_len`. -/
def cLen : List UInt8 → Nat
  | [] => 0
  | b :: r => if b = 0 then 0 else cLen r + 1

/-- `text/re/m_re.c:142-171`, `M_re_eq`. -/
def eq (alnum : Nat → Bool) (t : Tnfa) (s : List UInt8) : Option Bool :=
  match search alnum t s with
  | none => none
  | some none => some false
  | some (some m) => some ((capIdx0 m).1 == 0 && (capIdx0 m).2 == (cLen s : Int))

/-- `text/re/m_re_match.c:137-150`, `M_re_match_adjust_offset`. -/
def shift (pos : Nat) (m : List Cap) : List Cap := m.map fun c => { c with off := c.off + pos }

/-- `text/re/m_re.c:192-203`: the loop of `M_re_matches`; `none` is undefined behaviour (or the fuel running out, which the
theorems exclude), `some none` the result NULL. -/
def matchesLoop (alnum : Nat → Bool) (t : Tnfa) (s : List UInt8) : Nat → Nat → List (List Cap) → Option (Option (List (List Cap)))
  | 0, _, _ => none
  | n + 1, pos, acc =>
    match search alnum t (s.drop pos) with
    | none => none
    | some none => some (some acc)
    | some (some m) =>
      match capIdx m 0 with
      | none => some none
      | some (o, l) => matchesLoop alnum t s n (pos + (o + l).toNat) (acc ++ [shift pos m])

/-- `text/re/m_re.c:173-206`, `M_re_matches`. -/
def all (alnum : Nat → Bool) (t : Tnfa) (s : List UInt8) : Option (Option (List (List Cap))) :=
  if cLen s = 0 then some none else matchesLoop alnum t s (cLen s + 1) 0 []

end Verif.Re
