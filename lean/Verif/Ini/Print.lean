import Verif.Ini.Write
import Verif.Ini.ReadProps
/- What is printed for a tree of elements, and the names it is printed with. -/
namespace Verif.Ini
open Verif.Chr Verif.Str

/-! ## What can be written -/

/-- A name of a key, in its section. -/
structure GoodName (st : Settings) (ign : Bool) (r : List UInt8) : Prop where
  ne : r ≠ []
  bare : Bare r
  clean : Clean st r
  kv : st.kv ∉ r
  head : r.head? ≠ some 91
  slash : 47 ∉ r
  name : nameOf ign r ≠ []
  spread : ign = true → Spread r

/-- A name of a section. -/
structure GoodSec (st : Settings) (ign : Bool) (s : List UInt8) : Prop where
  bare : Bare s ∧ Bare (nameOf ign s)
  clean : Clean st s
  close : 93 ∉ s
  slash : 47 ∉ s
  name : nameOf ign s ≠ []
  spread : ign = true → Spread s

/-- A key: a name, or a section and a name. -/
def GoodKey (st : Settings) (ign : Bool) (k : List UInt8) : Prop := GoodName st ign k ∨ ∃ s r, k = s ++ 47 :: r ∧ GoodSec st ign s ∧ GoodName st ign r

/-- A value that needs quotes. -/
def Quoted (st : Settings) (v : List UInt8) : Prop := v.head? = some 32 ∨ v.getLast? = some 32 ∨ st.quote ∈ v ∨ st.delim ∈ v

instance (st : Settings) (v : List UInt8) : Decidable (Quoted st v) := inferInstanceAs (Decidable (_ ∨ _))

/-- A value that can be written. -/
def Writable (st : Settings) (v : List UInt8) : Prop :=
  0 ∉ v ∧ ((st.quote ≠ 0 ∧ Quoted st v ∧ (st.quote = st.escape ∨ v.getLast? ≠ some st.escape)) ∨ (Bare v ∧ Clean st v))

/-- Settings to write with. -/
structure Writes (st : Settings) : Prop where
  sane : Sane st
  blank : st.delim ≠ 32
  ends : st.ending = none ∨ ∃ w, st.ending = some (w ++ [st.delim]) ∧ Spaces st w

/-! ## One line -/

theorem quote_text {st : Settings} (hs : Sane st) {v : List UInt8} (hv : v ≠ []) : Str.quote v st.quote st.escape = (Val.quoted v).text st := by
  show _ = [st.quote] ++ esc st.quote st.escape v ++ [st.quote]
  unfold Str.quote quoteMax
  rw [if_neg hv, quoteLoop_eq, esc_eq hs.small.2.1 hs.small.2.2.1]
  simp

theorem val_text {st : Settings} (hs : Sane st) {v : List UInt8} (hv : Writable st v) : ∃ w : Val, w.good st ∧ w.meant = v ∧ valText st v = w.text st := by
  obtain ⟨h0, ⟨hq, hn, hl⟩ | ⟨hb, hc⟩⟩ := hv
  · have hne : v ≠ [] := by
      rintro rfl
      rcases hn with h | h | h | h <;> simp at h
    refine ⟨.quoted v, ⟨hq, h0, hl⟩, rfl, ?_⟩
    have h1 : quoteIf v st.quote st.escape st.delim = some (Str.quote v st.quote st.escape) := by
      unfold quoteIf
      rw [if_neg hne]
      by_cases hh : v.head? = some 32 ∨ v.getLast? = some 32
      · rw [if_pos hh]
      · rw [if_neg hh, if_pos]
        rw [List.any_eq_true]
        rcases hn with h | h | h | h
        · exact absurd (.inl h) hh
        · exact absurd (.inr h) hh
        · exact ⟨_, h, by rw [(ceq_iff _ _ hs.small.2.1).2 rfl]; rfl⟩
        · exact ⟨_, h, by rw [(ceq_iff _ _ hs.small.1).2 rfl]; simp⟩
    unfold valText
    rw [h1, Option.getD_some, quote_text hs hne]
    apply takeWhile_all
    intro y hy
    have : y ≠ 0 := by
      rintro rfl
      simp only [Val.text, esc, List.mem_append, List.mem_singleton, List.mem_flatMap] at hy
      rcases hy with (h | ⟨c, hc, h⟩) | h
      · exact hq h.symm
      · split at h
        · rcases List.mem_cons.1 h with h | h
          · exact (hs.escape hq).1 h.symm
          · rw [List.mem_singleton.1 h] at h0; exact h0 hc
        · rw [List.mem_singleton.1 h] at h0; exact h0 hc
      · exact hq h.symm
    simpa using this
  · refine ⟨.bare v, ⟨hb, hc⟩, rfl, ?_⟩
    have h1 : quoteIf v st.quote st.escape st.delim = none := by
      unfold quoteIf
      by_cases hne : v = []
      · rw [if_pos hne]
      · rw [if_neg hne, if_neg, if_neg]
        · rw [List.any_eq_true]
          rintro ⟨c, hc', h⟩
          obtain ⟨c1, c2, c3, c4⟩ := hc c hc'
          rw [Bool.or_eq_true] at h
          rcases h with h | h
          · have e := (ceq_iff _ _ hs.small.2.1).1 h
            by_cases hq : st.quote = 0
            · exact c4 (e.trans hq)
            · exact c3 hq e
          · exact c1 ((ceq_iff _ _ hs.small.1).1 h)
        · rintro (h | h)
          · have := hb.1 32 h; revert this; decide
          · have := hb.2 32 h; revert this; decide
    unfold valText
    rw [h1, Option.getD_none]
    apply takeWhile_all
    intro y hy
    have : y ≠ 0 := by rintro rfl; exact h0 hy
    simpa using this

theorem ending_text {st : Settings} (hw : Writes st) : ∃ w, lineEnd st = w ++ [st.delim] ∧ Spaces st w := by
  rcases hw.ends with h | ⟨w, h, hs⟩
  · exact ⟨[], by simp [lineEnd, h], by simp [Spaces]⟩
  · exact ⟨w, by simp [lineEnd, h], hs⟩

theorem spaces_pad {st : Settings} (hw : Writes st) (b : Bool) : Spaces st (if b then [32] else []) := by
  intro c hc
  cases b with
  | false => simp at hc
  | true =>
    simp only [if_true, List.mem_singleton] at hc
    subst hc
    exact ⟨by decide, fun e => hw.blank e.symm⟩

theorem Spaces.app {st : Settings} {a b : List UInt8} (h : Spaces st a) (g : Spaces st b) : Spaces st (a ++ b) := fun c hc => (List.mem_append.1 hc).elim (h c) (g c)

/-- The line of a key. -/
theorem kv_text {st : Settings} (hw : Writes st) {ign : Bool} {p : List UInt8} (hp : GoodName st ign p) {v : Option (List UInt8)} (hv : ∀ x ∈ v, Writable st x) :
    ∃ l : Line, writeKv st (some p) v none = l.text st ++ [st.delim] ∧ l.good st ∧ l.core.named ign ∧ ∀ c sec rest, calls c sec (l :: rest) = put c (path sec p) v :: calls c sec rest := by
  obtain ⟨w, e, hws⟩ := ending_text hw
  cases v with
  | none =>
    refine ⟨⟨[], .key p none, w⟩, ?_, ⟨by simp [Spaces], hws, hp.ne, hp.bare, hp.clean, hp.kv, hp.head, by simp⟩, ⟨hp.slash, hp.name, hp.spread⟩, fun _ _ _ => rfl⟩
    simp [writeKv, hp.ne, valPart, tailComment, e, Line.text, Core.text, tailText]
  | some v =>
    obtain ⟨x, hx, hm, ht⟩ := val_text hw.sane (hv v rfl)
    by_cases hb : x = .bare []
    · refine ⟨⟨[], .pair p (if st.padBefore then [32] else []) [] x none, (if st.padAfter then [32] else []) ++ w⟩, ?_,
        ⟨by simp [Spaces], (spaces_pad hw _).app hws, hp.ne, hp.bare, hp.clean, hp.kv, hp.head, spaces_pad hw _, by simp [Spaces], hx, fun _ => rfl, by simp⟩,
        ⟨hp.slash, hp.name, hp.spread⟩, fun _ _ _ => by rw [← hm]; rfl⟩
      simp [writeKv, hp.ne, valPart, tailComment, e, Line.text, Core.text, tailText, ht, hb, Val.text]
    · refine ⟨⟨[], .pair p (if st.padBefore then [32] else []) (if st.padAfter then [32] else []) x none, w⟩, ?_,
        ⟨by simp [Spaces], hws, hp.ne, hp.bare, hp.clean, hp.kv, hp.head, spaces_pad hw _, spaces_pad hw _, hx, fun h => absurd h hb, by simp⟩,
        ⟨hp.slash, hp.name, hp.spread⟩, fun _ _ _ => by rw [← hm]; rfl⟩
      simp [writeKv, hp.ne, valPart, tailComment, e, Line.text, Core.text, tailText, ht]

theorem GoodSec.ne {st : Settings} {ign : Bool} {s : List UInt8} (h : GoodSec st ign s) : s ≠ [] := by
  rintro rfl
  exact h.name (by cases ign <;> rfl)

/-- The line of a section. -/
theorem sect_text {st : Settings} (hw : Writes st) {ign : Bool} {n m : List UInt8} (hm : GoodSec st ign m) :
    ∃ l : Line, writeElem st (some m) (.section n none) = l.text st ++ [st.delim] ∧ l.good st ∧ l.core.named ign ∧ ∀ c sec rest, calls c sec (l :: rest) = calls c (some m) rest := by
  obtain ⟨w, e, hws⟩ := ending_text hw
  refine ⟨⟨[], .sect [] m [] none, w⟩, ?_, ⟨by simp [Spaces], hws, by simp [Spaces], by simp [Spaces], hm.bare.1, hm.clean, hm.close, by simp⟩, hm.spread, fun _ _ _ => rfl⟩
  simp [writeElem, hm.ne, tailComment, e, Line.text, Core.text, tailText]

/-! ## The whole text -/

/-- The values that calls give a name. -/
def given (ign : Bool) (l : List (List UInt8 × Option (List UInt8))) (k : List UInt8) : List (Option (List UInt8)) := l.flatMap fun p => if Same (nameOf ign p.1) k then [p.2] else []

/-- Lines that stand for these calls. -/
structure Stands (st : Settings) (ign : Bool) (ls : List Line) (text : List UInt8) : Prop where
  text : text = ls.flatMap fun l => l.text st ++ [st.delim]
  good : ∀ l ∈ ls, l.good st
  named : ∀ l ∈ ls, l.core.named ign

theorem Stands.app {st : Settings} {ign : Bool} {a b : List Line} {x y : List UInt8} (h : Stands st ign a x) (g : Stands st ign b y) : Stands st ign (a ++ b) (x ++ y) :=
  ⟨by rw [h.text, g.text, List.flatMap_append], fun l hl => (List.mem_append.1 hl).elim (h.good l) (g.good l), fun l hl => (List.mem_append.1 hl).elim (h.named l) (g.named l)⟩

theorem Stands.one {st : Settings} {ign : Bool} {l : Line} {x : List UInt8} (h1 : x = l.text st ++ [st.delim]) (h2 : l.good st) (h3 : l.core.named ign) : Stands st ign [l] x :=
  ⟨by simp [h1], by simpa using h2, by simpa using h3⟩

/-- The keys of one section. -/
theorem keys_text {st : Settings} (hw : Writes st) {ign : Bool} (ini : Ini) (sec m : Option (List UInt8)) (hm : m.map (fun x => (nameOf ign x).map toLower) = sec.map (·.map toLower)) (es : List Elem) (hk : KvOnly es)
    (hl : ∀ key v, .kv key v none ∈ es → ∃ p, look ini.lookup (path sec key) = some p ∧ GoodName st ign p ∧ Same (nameOf ign p) key) (hv : ∀ key v, .kv key (some v) none ∈ es → Writable st v) :
    ∃ ls L, Stands st ign ls (es.flatMap fun e => writeElem st (prettyKey ini sec e) e) ∧ (∀ c rest, calls c m (ls ++ rest) = L.map (fun x => put c x.1 x.2) ++ calls c m rest) ∧
      (∀ k, given ign L k = occ sec es k) ∧ ∀ x ∈ L, Valid x.1 := by
  induction es with
  | nil => exact ⟨[], [], ⟨rfl, by simp, by simp⟩, fun _ _ => rfl, fun _ => rfl, by simp⟩
  | cons e es ih =>
    obtain ⟨ls, L, h1, h2, h3, h4⟩ := ih (fun e he => hk e (by simp [he])) (fun key v h => hl key v (by simp [h])) (fun key v h => hv key v (by simp [h]))
    obtain ⟨key, v, rfl⟩ := hk e (by simp)
    obtain ⟨p, p1, p2, p3⟩ := hl key v (by simp)
    obtain ⟨l, l1, l2, l3, l4⟩ := kv_text hw p2 (v := v) (fun x hx => hv key x (by rw [← Option.mem_def.1 hx]; simp))
    refine ⟨l :: ls, (path m p, v) :: L, ?_, ?_, ?_, ?_⟩
    · rw [List.flatMap_cons]
      refine (Stands.one (l := l) ?_ l2 l3).app h1
      show writeKv st (look ini.lookup (fullKey sec key)) v none = _
      rw [fullKey_path, p1, l1]
    · intro c rest
      rw [List.cons_append, l4, h2]; rfl
    · intro k
      rw [occ_cons, occ_kv, ← h3]
      have hs : Same (nameOf ign (path m p)) (path sec key) := by
        rw [nameOf_path]
        cases m with
        | none =>
          cases sec with
          | none => exact p3
          | some s => simp at hm
        | some m =>
          cases sec with
          | none => simp at hm
          | some s =>
            simp only [Option.map_some, Option.some.injEq] at hm
            unfold Same at p3 ⊢
            simp [path, hm, p3]
      unfold given
      rw [List.flatMap_cons]
      congr 1
      by_cases hk : Same (path sec key) k
      · rw [if_pos hk, if_pos (hs.trans hk)]
      · rw [if_neg hk, if_neg fun h => hk (hs.symm.trans h)]
    · intro x hx
      rcases List.mem_cons.1 hx with rfl | hx
      · exact path_valid p2.ne p2.slash
      · exact h4 x hx

theorem treeText_pre (st : Settings) (ini : Ini) (pre rest : List Elem) (hk : KvOnly pre) :
    treeText st ini (pre ++ rest) none = (pre.flatMap fun e => writeElem st (prettyKey ini none e) e) ++ treeText st ini rest none := by
  induction pre with
  | nil => rfl
  | cons e pre ih =>
    obtain ⟨k, v, rfl⟩ := hk e (by simp)
    rw [List.cons_append, List.flatMap_cons, List.append_assoc, ← ih fun e he => hk e (by simp [he])]
    rfl

/-- The text of a tree stands for calls that give every key its values. -/
theorem tree_text {st : Settings} (hw : Writes st) {ign : Bool} {ini : Ini} {ns : List (List UInt8)} {pre : List Elem} {hs : List (List UInt8 × Option (List UInt8))} (m : Made ini ns pre hs)
    (hl : ∀ key v, .kv key v none ∈ pre → ∃ p, look ini.lookup key = some p ∧ GoodName st ign p ∧ Same (nameOf ign p) key)
    (hl2 : ∀ p ∈ ini.sections, ∀ key v, .kv key v none ∈ p.2 → ∃ q, look ini.lookup (path (some p.1) key) = some q ∧ GoodName st ign q ∧ Same (nameOf ign q) key)
    (hh : ∀ p ∈ hs, ∃ q, look ini.lookup (p.1 ++ [47]) = some q ∧ GoodSec st ign q ∧ Same (nameOf ign q) p.1)
    (hv : ∀ key v, .kv key (some v) none ∈ pre → Writable st v) (hv2 : ∀ p ∈ ini.sections, ∀ key v, .kv key (some v) none ∈ p.2 → Writable st v) :
    ∃ ls L, Stands st ign ls (treeText st ini ini.elements none) ∧ (∀ c, calls c none ls = L.map (fun x => put c x.1 x.2)) ∧ (∀ k, given ign L k = treeVals ini k) ∧ ∀ x ∈ L, Valid x.1 := by
  obtain ⟨ls1, L1, a1, a2, a3, a4⟩ := keys_text hw (ign := ign) ini none none rfl pre m.root hl hv
  have hap : Apart (ini.sections.map (·.1)) := m.tree.heads ▸ m.tree.apart
  have heads : ∀ (hs : List (List UInt8 × Option (List UInt8))) (ss : List (List UInt8 × List Elem)), hs.map (·.1) = ss.map (·.1) → (∀ p ∈ hs, p.2 = none) →
      (∀ p ∈ hs, ∃ q, look ini.lookup (p.1 ++ [47]) = some q ∧ GoodSec st ign q ∧ Same (nameOf ign q) p.1) → (∀ p ∈ ss, p ∈ ini.sections) → ∀ sec sec',
      ∃ ls L, Stands st ign ls (treeText st ini (hs.map header) sec) ∧ (∀ c, calls c sec' ls = L.map (fun x => put c x.1 x.2)) ∧ (∀ k, given ign L k = occs ss k) ∧ ∀ x ∈ L, Valid x.1 := by
    intro hs
    induction hs with
    | nil =>
      intro ss h0 _ _ _ sec sec'
      cases ss with
      | nil => exact ⟨[], [], ⟨rfl, by simp, by simp⟩, fun _ => rfl, fun _ => rfl, by simp⟩
      | cons p ss => simp at h0
    | cons p hs ih =>
      intro ss h0 h1 h2 h3 sec sec'
      cases ss with
      | nil => simp at h0
      | cons q ss =>
        simp only [List.map_cons, List.cons.injEq] at h0
        obtain ⟨n, c⟩ := p
        obtain ⟨rfl, h0⟩ : n = q.1 ∧ _ := h0
        obtain rfl : c = none := h1 (q.1, c) (by simp)
        obtain ⟨x, x1, x2, x3⟩ := h2 (q.1, none) (by simp)
        obtain ⟨l, l1, l2, l3, l4⟩ := sect_text hw (n := q.1) x2
        have hq := h3 q (by simp)
        obtain ⟨ls2, L2, b1, b2, b3, b4⟩ := keys_text hw (ign := ign) ini (some q.1) (some x) (by simp; exact x3) q.2 (m.secs q hq) (hl2 q hq) (hv2 q hq)
        obtain ⟨ls3, L3, c1, c2, c3, c4⟩ := ih ss h0 (fun p hp => h1 p (by simp [hp])) (fun p hp => h2 p (by simp [hp])) (fun p hp => h3 p (by simp [hp])) (some q.1) (some x)
        refine ⟨l :: (ls2 ++ ls3), L2 ++ L3, ?_, ?_, ?_, ?_⟩
        · have e : treeText st ini (header (q.1, none) :: hs.map header) sec = writeElem st (some x) (.section q.1 none) ++ ((q.2.flatMap fun e => writeElem st (prettyKey ini (some q.1) e) e) ++ treeText st ini (hs.map header) (some q.1)) := by
            have e1 : fullKey (some q.1) [] = q.1 ++ [47] := by simp [fullKey]
            simp only [header, treeText, writeSection]
            rw [e1, x1, look_of_mem hap hq (Same.refl q.1), Option.getD_some, List.append_assoc]
          rw [List.map_cons, e]
          exact (Stands.one (l := l) l1 l2 l3).app (b1.app c1)
        · intro c
          rw [l4, b2, c2, List.map_append]
        · intro k
          unfold given at b3 c3 ⊢
          unfold occs at c3 ⊢
          rw [List.flatMap_append, b3, c3, List.flatMap_cons]
        · intro x hx
          exact (List.mem_append.1 hx).elim (b4 x) (c4 x)
  obtain ⟨ls2, L2, b1, b2, b3, b4⟩ := heads hs ini.sections m.tree.heads m.bald hh (fun _ h => h) none none
  refine ⟨ls1 ++ ls2, L1 ++ L2, ?_, ?_, ?_, fun x hx => (List.mem_append.1 hx).elim (a4 x) (b4 x)⟩
  · rw [m.tree.split, treeText_pre _ _ _ _ m.root]
    exact a1.app b1
  · intro c
    rw [a2, b2, List.map_append]
  · intro k
    unfold treeVals
    rw [m.tree.split, occ_app, occ_headers, List.append_nil, ← a3, ← b3]
    simp [given]

end Verif.Ini
