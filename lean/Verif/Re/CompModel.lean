import Verif.Re.Model
/-! Model of building the automaton from the syntax tree: `text/re/mtre/regcomp.c`, from the expansion of counted repetitions on.
The parser and the placing of tags (`tre_add_tags`) are not modelled: the theorems are for every tree. -/
namespace Verif.Re

/-- `text/re/mtre/regcomp.c:112-176`: the syntax tree.  A bracket expression is a union of literals with one position (`:824-835`);
the model has one node with all the ranges.  `empty`, `tag` and `asr` are the special literals; `hi = none` is -1. -/
inductive Ast
  | chars (rs : List (Int × Int)) (pos : Nat)
  | empty
  | tag (k : Nat)
  | asr (a : Nat)
  | cat (l r : Ast)
  | alt (l r : Ast)
  | iter (x : Ast) (lo : Nat) (hi : Option Nat)
deriving DecidableEq, Repr

/-- `text/re/mtre/regcomp.c:85-91`, `tre_pos_and_tags_t`. -/
structure Pos where
  pos : Nat
  lo : Int
  hi : Int
  tags : List Nat
  asr : Nat
deriving DecidableEq, Repr

/-- `text/re/mtre/regcomp.c:2221-2303`, `tre_set_union`. -/
def setUnion (s1 s2 : List Pos) (tags : List Nat) (a : Nat) : List Pos :=
  (s1.map fun p => { p with tags := p.tags ++ tags, asr := p.asr ||| a }) ++ s2

/-- The field `nullable`: `text/re/mtre/regcomp.c:2434-2453`, `:2504`, `:2522-2526`, `:2540`. -/
def nullable : Ast → Bool
  | .chars _ _ => false
  | .empty => true
  | .tag _ => true
  | .asr _ => true
  | .cat l r => nullable l && nullable r
  | .alt l r => nullable l || nullable r
  | .iter x lo _ => lo == 0 || nullable x

/-- `text/re/mtre/regcomp.c:2309-2404`, `tre_match_empty`: the tags on the empty path, in the order in which the stack delivers the
nodes. -/
def emptyTags : Ast → List Nat → List Nat
  | .chars _ _, acc => acc
  | .empty, acc => acc
  | .tag k, acc => if acc.contains k then acc else acc ++ [k]
  | .asr _, acc => acc
  | .cat l r, acc => emptyTags l (emptyTags r acc)
  | .alt l r, acc => if nullable l then emptyTags l acc else if nullable r then emptyTags r acc else acc
  | .iter x _ _, acc => if nullable x then emptyTags x acc else acc

/-- `text/re/mtre/regcomp.c:2309-2404`, `tre_match_empty`: the assertions on the empty path. -/
def emptyAsr : Ast → Nat
  | .chars _ _ => 0
  | .empty => 0
  | .tag _ => 0
  | .asr a => a
  | .cat l r => emptyAsr l ||| emptyAsr r
  | .alt l r => if nullable l then emptyAsr l else if nullable r then emptyAsr r else 0
  | .iter x _ _ => if nullable x then emptyAsr x else 0

/-- The field `firstpos`: `text/re/mtre/regcomp.c:2434-2465`, `:2505`, `:2527`, `:2542-2578`. -/
def first : Ast → List Pos
  | .chars rs p => rs.map fun r => ⟨p, r.1, r.2, [], 0⟩
  | .empty => []
  | .tag _ => []
  | .asr _ => []
  | .cat l r => if nullable l then setUnion (first r) (first l) (emptyTags l []) (emptyAsr l) else first l
  | .alt l r => setUnion (first l) (first r) [] 0
  | .iter x _ _ => first x

/-- The field `lastpos`: `text/re/mtre/regcomp.c:2434-2465`, `:2511`, `:2528`, `:2580-2616`. -/
def last : Ast → List Pos
  | .chars rs p => rs.map fun r => ⟨p, r.1, r.2, [], 0⟩
  | .empty => []
  | .tag _ => []
  | .asr _ => []
  | .cat l r => if nullable r then setUnion (last l) (last r) (emptyTags r []) (emptyAsr r) else last r
  | .alt l r => setUnion (last l) (last r) [] 0
  | .iter x _ _ => last x

/-- `text/re/mtre/regcomp.c:2647-2654`: positions that follow themselves are skipped. -/
def skipSame : Option Nat → List Pos → List Pos
  | _, [] => []
  | prev, p :: ps => if some p.pos = prev then skipSame prev ps else p :: skipSame (some p.pos) ps

/-- `text/re/mtre/regcomp.c:2656-2722`: the transition from one position to another. -/
def mkTrans1 (a b : Pos) : Nat × Trans :=
  (a.pos, { lo := a.lo, hi := a.hi, dst := b.pos, tags := a.tags ++ b.tags.filter fun k => !a.tags.contains k, asr := a.asr ||| b.asr })

/-- `text/re/mtre/regcomp.c:2630-2752`, `tre_make_trans`: the transitions made, with the states they leave, in order. -/
def mkTrans (p1 p2 : List Pos) : List (Nat × Trans) :=
  p1.flatMap fun a => (skipSame none p2).map fun b => mkTrans1 a b

/-- `text/re/mtre/regcomp.c:2758-2813`, `tre_ast_to_tnfa`. -/
def edges : Ast → List (Nat × Trans)
  | .chars _ _ => []
  | .empty => []
  | .tag _ => []
  | .asr _ => []
  | .cat l r => mkTrans (last l) (first r) ++ (edges l ++ edges r)
  | .alt l r => edges l ++ edges r
  | .iter x _ hi => (if hi = none then mkTrans (last x) (first x) else []) ++ edges x

/-- `text/re/mtre/regcomp.c:2737-2750`: how many transitions are counted for a state. -/
def pairs (p1 p2 : List Pos) (q : Nat) : Nat := (p1.filter fun a => a.pos == q).length * p2.length

/-- The same for a tree: the room for the transitions leaving a state (`text/re/mtre/regcomp.c:2934-2951`). -/
def counts : Ast → Nat → Nat
  | .chars _ _, _ => 0
  | .empty, _ => 0
  | .tag _, _ => 0
  | .asr _, _ => 0
  | .cat l r, q => pairs (last l) (first r) q + (counts l q + counts r q)
  | .alt l r, q => counts l q + counts r q
  | .iter x _ hi, q => (if hi = none then pairs (last x) (first x) q else 0) + counts x q

/-- `text/re/mtre/regcomp.c:2919-2928`: the tree with the node for the final state, at position `n`. -/
def root (x : Ast) (n : Nat) : Ast := .cat x (.chars [(0, 0)] n)

/-- `text/re/mtre/regcomp.c:2930-2998`: the automaton for a tree whose positions are below `n`.  Tags and submatches come from
`tre_add_tags`. -/
def build (x : Ast) (n : Nat) (rest : Tnfa) : Tnfa :=
  { rest with
    trans := (List.range (n + 1)).map fun q => ((edges (root x n)).filter fun e => e.1 == q).map (·.2)
    initial := (first (root x n)).map fun p => { lo := 0, hi := 0, dst := p.pos, tags := p.tags, asr := p.asr }
    final := n }

/-- `text/re/mtre/regcomp.c:1839-1977`, `tre_copy_ast` without the directions of tags: the copy and how many literals it has. -/
def copy (rm : Bool) (add : Nat) : Ast → Ast × Nat
  | .chars rs p => (.chars rs (p + add), rs.length)
  | .empty => (.empty, 0)
  | .tag k => (if rm then .empty else .tag k, 0)
  | .asr a => (.asr a, 0)
  | .cat l r =>
    let a := copy rm add l
    let b := copy rm add r
    (.cat a.1 b.1, a.2 + b.2)
  | .alt l r =>
    let a := copy rm add l
    let b := copy rm add r
    (.alt a.1 b.1, a.2 + b.2)
  | .iter x lo hi =>
    let a := copy rm add x
    (.iter a.1 lo hi, a.2)

/-- `text/re/mtre/regcomp.c:2092-2096`, `:2151-2153`: a tree after what there is already. -/
def after (o : Option Ast) (s : Ast) : Ast :=
  match o with
  | none => s
  | some t => .cat t s

/-- `text/re/mtre/regcomp.c:2126-2130`: a tree before what there is already. -/
def before (s : Ast) (o : Option Ast) : Ast :=
  match o with
  | none => s
  | some t => .cat s t

/-- `text/re/mtre/regcomp.c:2149-2157`: both parts.  Without either the code reports lack of memory. -/
def both (o p : Option Ast) : Ast :=
  match o, p with
  | none, none => .empty
  | none, some s => s
  | some t, none => t
  | some t, some s => .cat t s

/-- `text/re/mtre/regcomp.c:2077-2101`: `j` copies remain to be made; `add` and `save` are `pos_add` and `pos_add_save`. -/
def seq1 (x : Ast) : Nat → Option Ast → Nat → Nat → Option Ast × Nat × Nat
  | 0, acc, add, save => (acc, add, save)
  | j + 1, acc, add, _ =>
    let c := copy (decide (0 < j)) add x
    seq1 x j (some (after acc c.1)) (add + c.2) add

/-- `text/re/mtre/regcomp.c:2116-2146`: the optional copies. -/
def seq2 (x : Ast) : Nat → Option Ast → Nat → Nat → Option Ast × Nat × Nat
  | 0, acc, add, save => (acc, add, save)
  | j + 1, acc, add, _ =>
    let c := copy false add x
    seq2 x j (some (.alt .empty (before c.1 acc))) (add + c.2) add

/-- `text/re/mtre/regcomp.c:2071-2161`: a counted repetition; the tree and `pos_add` after it. -/
def expandIter (x : Ast) (lo : Nat) (hi : Option Nat) (add : Nat) : Ast × Nat :=
  let a := seq1 x lo none add add
  match hi with
  | none =>
    let c := copy false a.2.1 x
    let s := Ast.iter c.1 0 none
    (after a.1 s, a.2.1)
  | some m =>
    let b := seq2 x (m - lo) none a.2.1 a.2.2
    (both a.1 b.1, b.2.2)

/-- `text/re/mtre/regcomp.c:1986-2186`: `pos_add`, `pos_add_total`, and `max_pos` without the part that follows from the tree. -/
structure Ex where
  add : Nat
  total : Nat
deriving DecidableEq, Repr

/-- Is the repetition expanded (`text/re/mtre/regcomp.c:2051`, `:2071`)? -/
def counted (lo : Nat) (hi : Option Nat) : Bool :=
  decide (lo > 1) || (match hi with | none => false | some m => decide (m > 1))

/-- `text/re/mtre/regcomp.c:1986-2186`, `tre_expand_ast`; `d` is `iter_depth`.  The difference `pos_add - pos_add_last` is not
negative. -/
def expand : Nat → Ast → Ex → Ast × Ex
  | _, .chars rs p, e => (.chars rs (p + e.add), e)
  | _, .empty, e => (.empty, e)
  | _, .tag k, e => (.tag k, e)
  | _, .asr a, e => (.asr a, e)
  | d, .cat l r, e =>
    let a := expand d l e
    let b := expand d r a.2
    (.cat a.1 b.1, b.2)
  | d, .alt l r, e =>
    let a := expand d l e
    let b := expand d r a.2
    (.alt a.1 b.1, b.2)
  | d, .iter x lo hi, e =>
    let a := expand (d + 1) x { e with add := if counted lo hi then 0 else e.add }
    let r := if counted lo hi then expandIter a.1 lo hi e.add else (.iter a.1 lo hi, e.add)
    let total := a.2.total + (r.2 - e.add)
    (r.1, { add := if d = 0 then total else r.2, total := total })

/-- The largest position of a tree, for `max_pos` (`text/re/mtre/regcomp.c:1897-1899`, `:2013-2015`). -/
def maxPos : Ast → Nat
  | .chars _ p => p
  | .empty => 0
  | .tag _ => 0
  | .asr _ => 0
  | .cat l r => max (maxPos l) (maxPos r)
  | .alt l r => max (maxPos l) (maxPos r)
  | .iter x _ _ => maxPos x

/-- `text/re/mtre/regcomp.c:2914-2998`: the automaton for a tree as parsed, with `n` positions.  (`max_pos` also counts trees that
were thrown away; these have smaller positions than their copies.) -/
def compile (x : Ast) (n : Nat) (rest : Tnfa) : Tnfa :=
  let e := expand 0 x ⟨0, 0⟩
  build e.1 (max (n + e.2.total) (maxPos e.1)) rest

end Verif.Re
