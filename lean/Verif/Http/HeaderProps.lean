import Verif.Http.HeaderSpec
import Verif.Http.FrameLemmas
/- C86: what is put into the headers of a message is found there. -/
namespace Verif.Http.Frame
open Verif.Chr (isSpace toLower)
open Verif.Str (NoOuter join)

/-! ### Parts -/

theorem same_iff {a b : List UInt8} : same a b = true ↔ Alike a b := by simp [same, Alike]
theorem same_false {a b : List UInt8} : same a b = false ↔ ¬ Alike a b := by rw [← same_iff, Bool.not_eq_true]

theorem joinStr_eq (sep x : List UInt8) : ∀ xs : List (List UInt8), joinStr sep (x :: xs) = some (join sep (x :: xs)) := by
  intro xs
  simp only [joinStr, Option.some.injEq]
  have key : ∀ (xs : List (List UInt8)) (a b : List UInt8), xs.foldl (fun out y => out ++ sep ++ y) (a ++ b) = a ++ xs.foldl (fun out y => out ++ sep ++ y) b := by
    intro xs
    induction xs with
    | nil => intro a b; rfl
    | cons y ys ih =>
      intro a b
      rw [List.foldl_cons, List.foldl_cons, ← ih]
      simp
  induction xs generalizing x with
  | nil => rfl
  | cons y ys ih => rw [List.foldl_cons, key, Str.join_cons _ _ (by simp), ih]

/-- The modifiers as the specification writes them. -/
def modSpec (m : List UInt8 × List UInt8) : List UInt8 := if m.2 = [] then m.1 else m.1 ++ [61] ++ m.2

theorem modText_eq (m : List UInt8 × List UInt8) : modText m = modSpec m := by
  unfold modText modSpec
  split <;> simp

theorem partText_eq (p : HVal) : partText p = join [59, 32] (p.value :: p.mods.map modSpec) := rfl

theorem valueString_eq (p : HVal) : valueString p = some (partText p) := by
  unfold valueString partText
  rw [joinStr_eq]
  congr 2
  congr 1
  apply List.map_congr_left
  intro m _
  exact modText_eq m

theorem join_space (d : UInt8) : ∀ (x : List UInt8) (xs : List (List UInt8)), join [d, 32] (x :: xs) = join [d] (x :: xs.map (32 :: ·)) := by
  intro x xs
  induction xs generalizing x with
  | nil => rfl
  | cons y ys ih =>
    rw [Str.join_cons [d, 32] x (by simp), List.map_cons, Str.join_cons [d] x (by simp), ih]
    cases ys with
    | nil => simp [join]
    | cons z zs => simp [join]

theorem trim_space {t : List UInt8} (h : NoOuter t) : Str.trim (32 :: t) = t :=
  Str.trim_unique (a := [32]) (b := []) (by simp) (by simp [isSpace]) (by simp) h

theorem tput_new {α : Type} {k : List UInt8} {v : α} {t : List (List UInt8 × α)} (hk : k ≠ []) (h : ∀ e ∈ t, ¬ Alike e.1 k) : tput k v t = t ++ [(k, v)] := by
  rw [tput, if_neg hk, if_neg]
  simp only [List.any_eq_true, not_exists, not_and]
  exact fun e he => by rw [same_iff]; exact h e he

theorem addMod_eq {ms : List (List UInt8 × List UInt8)} {m : List UInt8 × List UInt8} (hn : m.1 ≠ []) (ho : NoOuter m.1 ∧ NoOuter m.2)
    (hb : ∀ c ∈ m.1 ++ m.2, c ≠ 0 ∧ c ≠ 61) (hd : ∀ e ∈ ms, ¬ Alike e.1 m.1) : addMod ms (32 :: modSpec m) = some (ms ++ [m]) := by
  obtain ⟨k, v⟩ := m
  simp only at *
  have hk : (61 : UInt8) ∉ 32 :: k := by
    simp only [List.mem_cons, not_or]
    exact ⟨by decide, fun hc => (hb 61 (List.mem_append_left _ hc)).2 rfl⟩
  have hk0 : (0 : UInt8) ∉ 32 :: k := by
    simp only [List.mem_cons, not_or]
    exact ⟨by decide, fun hc => (hb 0 (List.mem_append_left _ hc)).1 rfl⟩
  unfold addMod modSpec
  by_cases hv : v = []
  · have := Str.explode_join 61 [32 :: k] (by simpa using hk) (by simpa [join] using hk0) (by simp [join])
    simp only [join] at this
    simp only [if_pos hv, this]
    rw [trim_space ho.1, tput_new hn hd, hv]
  · have hv61 : (61 : UInt8) ∉ v := fun hc => (hb 61 (List.mem_append_right _ hc)).2 rfl
    have hv0 : (0 : UInt8) ∉ v := fun hc => (hb 0 (List.mem_append_right _ hc)).1 rfl
    have := Str.explode_join 61 [32 :: k, v] (by simpa using ⟨by simpa using hk, hv61⟩) (by
      simp only [join, List.mem_append, List.mem_singleton, not_or]
      exact ⟨⟨hk0, by decide⟩, hv0⟩) (by simp [join])
    simp only [join, List.cons_append] at this
    simp only [if_neg hv, this]
    rw [trim_space ho.1, Str.trim_eq ho.2, tput_new hn hd]

theorem foldMods : ∀ (ms acc : List (List UInt8 × List UInt8)), (∀ m ∈ ms, m.1 ≠ []) → (∀ m ∈ ms, NoOuter m.1 ∧ NoOuter m.2) → (∀ m ∈ ms, ∀ c ∈ m.1 ++ m.2, c ≠ 0 ∧ c ≠ 61) →
    (acc ++ ms).Pairwise (fun a b => ¬ Alike a.1 b.1) → (ms.map fun m => 32 :: modSpec m).foldlM addMod acc = some (acc ++ ms) := by
  intro ms
  induction ms with
  | nil => intro acc _ _ _ _; simp
  | cons m ms ih =>
    intro acc h1 h2 h3 h4
    rw [List.map_cons, List.foldlM_cons, addMod_eq (h1 m (by simp)) (h2 m (by simp)) (h3 m (by simp)) fun e he => (List.pairwise_append.1 h4).2.2 e he m (by simp)]
    have e : acc ++ m :: ms = acc ++ [m] ++ ms := by simp
    rw [e] at h4 ⊢
    exact ih _ (fun x hx => h1 x (by simp [hx])) (fun x hx => h2 x (by simp [hx])) (fun x hx => h3 x (by simp [hx])) h4

theorem partText_ne {p : HVal} (h : PartGood p) : partText p ≠ [] := by
  rw [partText_eq, join_space]
  cases hp : p.mods.map modSpec with
  | nil => simpa [join] using h.value
  | cons y ys => rw [List.map_cons, Str.join_cons _ _ (by simp)]; simp

theorem mem_join {d : List UInt8} {c : UInt8} : ∀ {ps : List (List UInt8)} {p : List UInt8}, p ∈ ps → c ∈ p → c ∈ join d ps
  | [x], p, hp, hc => by rw [List.mem_singleton.1 hp] at hc; exact hc
  | x :: y :: ps, p, hp, hc => by
    rw [Str.join_cons _ _ (by simp)]
    rcases List.mem_cons.1 hp with rfl | hp
    · simp [hc]
    · exact List.mem_append_right _ (mem_join hp hc)

/-- The text of a part is taken apart again. -/
theorem splitValue_eq {p : HVal} (h : PartGood p) (h0 : ∀ c ∈ partText p, c ≠ 0) : splitValue (partText p) = some (some p) := by
  have hm0 : ∀ m ∈ p.mods, ∀ c ∈ m.1 ++ m.2, c ≠ 0 := by
    intro m hm c hc
    apply h0
    rw [partText_eq]
    refine mem_join (p := modSpec m) (List.mem_cons_of_mem _ (List.mem_map_of_mem hm)) ?_
    unfold modSpec
    split
    · next hv => simpa [hv] using hc
    · simp only [List.mem_append] at hc ⊢
      rcases hc with hc | hc <;> simp [hc]
  rw [splitValue, if_neg (partText_ne h)]
  have e : partText p = join [59] (p.value :: (p.mods.map modSpec).map (32 :: ·)) := by rw [partText_eq, join_space]
  have hx := Str.explode_join 59 (p.value :: (p.mods.map modSpec).map (32 :: ·)) (by
    intro x hx
    simp only [List.map_map, List.mem_cons, List.mem_map] at hx
    rcases hx with rfl | ⟨m, hm, rfl⟩
    · exact h.valueByte
    · have hb := h.modByte m hm
      simp only [Function.comp, List.mem_cons, not_or]
      refine ⟨by decide, ?_⟩
      unfold modSpec
      split
      · exact fun hc => (hb 59 (by simp [hc])).1 rfl
      · simp only [List.mem_append, List.mem_singleton, not_or]
        exact ⟨⟨fun hc => (hb 59 (by simp [hc])).1 rfl, by decide⟩, fun hc => (hb 59 (by simp [hc])).1 rfl⟩) (by rw [← e]; exact fun hc => h0 0 hc rfl)
    (by rw [← e]; exact partText_ne h)
  rw [e, hx]
  simp only
  have := foldMods p.mods [] h.name h.modOuter (fun m hm c hc => ⟨hm0 m hm c hc, (h.modByte m hm c hc).2⟩) (by simpa using h.distinct)
  rw [List.map_map, show ((fun x => 32 :: x) ∘ modSpec) = fun m => 32 :: modSpec m from rfl, this, Str.trim_eq h.valueOuter]
  rfl

theorem addValues_eq {vs : List HVal} {p : HVal} (h : PartGood p) (h0 : ∀ c ∈ partText p, c ≠ 0) (hd : ∀ v ∈ vs, ¬ Alike v.value p.value) : addValues vs (partText p) = some (vs ++ [p]) := by
  rw [addValues, splitValue_eq h h0]
  simp only [addValue]
  rw [if_neg, if_neg h.value]
  simp only [List.any_eq_true, not_exists, not_and]
  exact fun e he => by rw [same_iff]; exact hd e he

theorem foldValues : ∀ (ps vs : List HVal), (∀ p ∈ ps, PartGood p) → (∀ p ∈ ps, ∀ c ∈ partText p, c ≠ 0) → (vs ++ ps).Pairwise (fun a b => ¬ Alike a.value b.value) →
    (ps.map partText).foldlM addValues vs = some (vs ++ ps) := by
  intro ps
  induction ps with
  | nil => intro vs _ _ _; simp
  | cons p ps ih =>
    intro vs h1 h2 h3
    rw [List.map_cons, List.foldlM_cons, addValues_eq (h1 p (by simp)) (h2 p (by simp)) fun e he => (List.pairwise_append.1 h3).2.2 e he p (by simp)]
    have e : vs ++ p :: ps = vs ++ [p] ++ ps := by simp
    rw [e] at h3 ⊢
    exact ih _ (fun x hx => h1 x (by simp [hx])) (fun x hx => h2 x (by simp [hx])) h3

/-! ### Headers -/

theorem name_outer {f : Field} (h : f.Good) : NoOuter f.name := by
  refine ⟨fun c t e => (h.nameByte c (by simp [e])).2.2, fun c t e => (h.nameByte c (by simp [e])).2.2⟩

theorem whole_one {x : Hdr} (h : x.Good) (hw : x.field.whole) : ∃ p, x.parts = [p] ∧ partText p = x.text := by
  obtain ⟨p, hp⟩ := List.length_eq_one_iff.1 (h.whole hw)
  exact ⟨p, hp, by simp [Hdr.text, Field.text, Hdr.field, hp, join]⟩

theorem values_parts {x : Hdr} (h : x.Good) : x.field.values = x.parts.map partText := by
  unfold Field.values
  split
  · next hw =>
    obtain ⟨p, h1, h2⟩ := whole_one h hw
    rw [h1, show x.field.text = x.text from rfl, ← h2]; rfl
  · rfl

theorem part_bytes {x : Hdr} (h : x.Good) : ∀ p ∈ x.parts, ∀ c ∈ partText p, c ≠ 0 :=
  fun _ hp c hc => (h.field.partByte _ (List.mem_map_of_mem hp) c hc).1

theorem text_ne {f : Field} (h : f.Good) : f.text ≠ [] := join_ne h.parts fun p hp => (h.part p hp).1

theorem Hdr.Good.name_ne {x : Hdr} (h : x.Good) : x.name ≠ [] := h.field.name
theorem Hdr.Good.text_ne {x : Hdr} (h : x.Good) : x.text ≠ [] := Frame.text_ne h.field
theorem nosplit_hdr {x : Hdr} (h : x.Good) : nosplit x.name = true ↔ x.field.whole := nosplit_iff (f := x.field) h.field.name (Nat.lt_of_lt_of_eq h.short rfl)

theorem whole_alike {f g : Field} (h : Alike f.name g.name) : f.whole ↔ g.whole := by
  unfold Field.whole Is
  rw [show f.name.map toLower = g.name.map toLower from h]

/-- Values are added to a header. -/
theorem update_eq {x : Hdr} (h : x.Good) {key : List UInt8} (hk : nosplit key = nosplit x.name) {vs : List HVal} (hd : ∀ v ∈ vs, ∀ p ∈ x.parts, ¬ Alike v.value p.value)
    (hv : vs.Pairwise fun a b => ¬ Alike a.value b.value) : update ⟨key, vs⟩ x.text = some (true, ⟨key, vs ++ x.parts⟩) := by
  have hs : splitVals x.name x.text = some (some x.field.values) := splitVals_eq h.field (Nat.lt_of_lt_of_eq h.short rfl)
  have hs' : splitVals key x.text = some (some x.field.values) := by
    rw [← hs]; unfold splitVals; rw [hk]
  rw [update, if_neg h.text_ne]
  simp only [hs']
  rw [values_parts h, foldValues _ _ h.part (part_bytes h) (List.pairwise_append.2 ⟨hv, h.distinct, hd⟩)]
  rfl

theorem create_eq {x : Hdr} (h : x.Good) : createHeader x.name x.text = some (some ⟨x.name, x.parts⟩) := by
  have := update_eq h (key := x.name) rfl (vs := []) (by simp) List.Pairwise.nil
  rw [createHeader, if_neg (by simp [h.name_ne, h.text_ne]), Str.trim_eq (show NoOuter x.name from name_outer h.field), this]
  rfl

/-- A header as it is stored. -/
def stored (h : Hdr) : List UInt8 × Option Header := (h.name, some ⟨h.name, h.parts⟩)

/-- The names differ. -/
def Distinct (hs : List Hdr) : Prop := hs.Pairwise fun a b => ¬ Alike a.name b.name

theorem lookup_spec {hs : List Hdr} (n : List UInt8) : tget n (hs.map stored) = (lookup hs n).map fun h => (stored h).2 := by
  unfold tget lookup
  rw [List.find?_map]
  have : ((fun e => same e.1 n) ∘ stored) = fun h : Hdr => decide (Alike h.name n) := by
    funext h
    simp only [Function.comp, stored]
    by_cases hh : Alike h.name n
    · rw [same_iff.2 hh, decide_eq_true hh]
    · rw [same_false.2 hh, decide_eq_false hh]
  rw [this]
  cases hs.find? fun h => decide (Alike h.name n) <;> rfl

theorem lookup_none {hs : List Hdr} {n : List UInt8} : lookup hs n = none ↔ ∀ h ∈ hs, ¬ Alike h.name n := by
  simp [lookup, List.find?_eq_none]

theorem lookup_some {hs : List Hdr} {n : List UInt8} {h : Hdr} (e : lookup hs n = some h) : h ∈ hs ∧ Alike h.name n := by
  have := List.find?_some e
  exact ⟨List.mem_of_find?_eq_some e, by simpa using this⟩

/-- A new header goes to the end. -/
theorem merge_new {x : Hdr} (h : x.Good) {hs : List Hdr} (hn : lookup hs x.name = none) : mergeOne (hs.map stored) (x.name, x.text) = some ((hs ++ [x]).map stored) := by
  rw [mergeOne]
  simp only [lookup_spec, hn, Option.map_none, create_eq h, Option.map_some]
  rw [tput_new h.name_ne]
  · simp [stored]
  · intro e he
    obtain ⟨y, hy, rfl⟩ := List.mem_map.1 he
    exact lookup_none.1 hn y hy

theorem nosplit_alike {a b : Hdr} (ha : a.Good) (hb : b.Good) (h : Alike a.name b.name) : nosplit a.name = nosplit b.name := by
  rw [Bool.eq_iff_iff, nosplit_hdr ha, nosplit_hdr hb]
  exact whole_alike (f := a.field) (g := b.field) h

theorem distinct_eq {hs : List Hdr} (hd : Distinct hs) {a b : Hdr} (ha : a ∈ hs) (hb : b ∈ hs) (h : Alike a.name b.name) : a = b := by
  induction hs with
  | nil => cases ha
  | cons x hs ih =>
    have := List.pairwise_cons.1 hd
    rcases List.mem_cons.1 ha with e | ha' <;> rcases List.mem_cons.1 hb with e' | hb'
    · rw [e, e']
    · rw [e] at h; exact absurd h (this.1 b hb')
    · rw [e'] at h; exact absurd h.symm (this.1 a ha')
    · exact ih this.2 ha' hb'

/-- Values go to the end of the header that is there. -/
theorem merge_old {x h : Hdr} (hx : x.Good) (hh : h.Good) {hs : List Hdr} (hl : lookup hs x.name = some h) (hd : Distinct hs) (hv : ∀ v ∈ h.parts, ∀ p ∈ x.parts, ¬ Alike v.value p.value) :
    mergeOne (hs.map stored) (x.name, x.text) = some ((hs.map fun h => if Alike h.name x.name then h.more x else h).map stored) := by
  obtain ⟨hm, ha⟩ := lookup_some hl
  have hu := update_eq hx (nosplit_alike hh hx ha) hv hh.distinct
  rw [mergeOne]
  simp only [lookup_spec, hl, Option.map_some, stored, hu, List.map_map]
  congr 1
  apply List.map_congr_left
  intro y hy
  by_cases hya : Alike y.name x.name
  · have : y = h := distinct_eq hd hy hm (Eq.trans hya ha.symm)
    subst this
    simp [stored, hya, same_iff.2 hya, Hdr.more]
  · simp [stored, hya, same_false.2 hya]

theorem more_good {h x : Hdr} (hh : h.Good) (hx : x.Good) (ha : Alike h.name x.name) (hw : ¬ x.field.whole) (hv : ∀ p ∈ h.parts, ∀ q ∈ x.parts, ¬ Alike p.value q.value) : (h.more x).Good := by
  have hw' : ¬ h.field.whole := fun hh' => hw ((whole_alike (f := h.field) (g := x.field) ha).1 hh')
  have hm : ∀ p ∈ (h.more x).field.parts, p ∈ h.field.parts ∨ p ∈ x.field.parts := by
    intro p hp
    simp only [Hdr.more, Hdr.field, List.map_append, List.mem_append] at hp
    exact hp
  refine ⟨⟨hh.field.name, hh.field.nameByte, ?_, fun p hp => ?_, fun p hp => ?_, fun _ p hp => ?_⟩, hh.short, fun hh' => absurd hh' hw', ?_, ?_⟩
  · have := hh.field.parts
    simp only [Hdr.field, ne_eq, List.map_eq_nil_iff] at this
    simp [Hdr.more, Hdr.field, this]
  · exact (hm p hp).elim (hh.field.part p) (hx.field.part p)
  · exact (hm p hp).elim (hh.field.partByte p) (hx.field.partByte p)
  · exact (hm p hp).elim (hh.field.comma hw' p) (hx.field.comma hw p)
  · intro p hp
    rcases List.mem_append.1 hp with hp | hp
    · exact hh.part p hp
    · exact hx.part p hp
  · exact List.pairwise_append.2 ⟨hh.distinct, hx.distinct, hv⟩

theorem tdel_stored (n : List UInt8) (hs : List Hdr) : tdel n (hs.map stored) = (without n hs).map stored := by
  rw [tdel, without, List.filter_map]
  congr 2
  funext h
  by_cases hh : Alike h.name n
  · simp [stored, same_iff.2 hh, hh]
  · simp [stored, same_false.2 hh, hh]

theorem lookup_without (n : List UInt8) (hs : List Hdr) : lookup (without n hs) n = none := by
  rw [lookup_none]
  intro h hh
  simpa using (List.mem_filter.1 hh).2

theorem mem_without {n : List UInt8} {hs : List Hdr} {h : Hdr} : h ∈ without n hs ↔ h ∈ hs ∧ ¬ Alike h.name n := by
  simp [without]

theorem distinct_snoc {hs : List Hdr} {x : Hdr} (h : Distinct hs) (hn : lookup hs x.name = none) : Distinct (hs ++ [x]) := by
  refine List.pairwise_append.2 ⟨h, List.pairwise_singleton _ _, ?_⟩
  intro a ha b hb
  rw [List.mem_singleton.1 hb]
  exact lookup_none.1 hn a ha

/-! ### Histories -/

/-- What an operation does to the headers of the model; `none` is undefined behaviour, and false in the pair a refusal. -/
def Op.apply (s : Store) : Op → Option (Bool × Store)
  | .set x => setHeader s x.name x.text false
  | .add x => addHeader s x.name x.text
  | .remove n => some (true, removeHeader s n)

/-- One after the other, all of which succeed. -/
def applyAll (s : Store) : List Op → Option Store
  | [] => some s
  | op :: ops =>
    match op.apply s with
    | some (true, s) => applyAll s ops
    | _ => none

theorem applyAll_append (a b : List Op) (s : Store) : applyAll s (a ++ b) = (applyAll s a).bind fun s => applyAll s b := by
  induction a generalizing s with
  | nil => rfl
  | cons op ops ih =>
    simp only [List.cons_append, applyAll]
    split
    · exact ih _
    · rfl

theorem op_step {hs : List Hdr} (hg : ∀ h ∈ hs, h.Good) (hd : Distinct hs) {op : Op} (h : op.Good hs) :
    op.apply (hs.map stored) = some (true, (op.run hs).map stored) ∧ (∀ h ∈ op.run hs, h.Good) ∧ Distinct (op.run hs) := by
  cases op with
  | set x =>
    refine ⟨?_, ?_, distinct_snoc (hd.filter _) (lookup_without _ _)⟩
    · simp only [Op.apply, setHeader, Op.run]
      rw [if_neg h.name_ne, if_neg h.text_ne]
      simp only [Bool.false_eq_true, if_false, tdel_stored, setHeaders, if_true, List.foldlM_cons, List.foldlM_nil]
      rw [merge_new h (lookup_without _ _)]
      rfl
    · intro y hy
      rcases List.mem_append.1 hy with hy | hy
      · exact hg y (mem_without.1 hy).1
      · rw [List.mem_singleton.1 hy]; exact h
  | add x =>
    obtain ⟨hx, hv⟩ := h
    simp only [Op.apply, addHeader, setHeader, Op.run]
    rw [if_neg (by simp [hx.name_ne, hx.text_ne]), if_neg hx.name_ne, if_neg hx.text_ne]
    simp only [setHeaders, if_true, List.foldlM_cons, List.foldlM_nil]
    cases hl : lookup hs x.name with
    | none =>
      rw [merge_new hx hl]
      refine ⟨rfl, ?_, distinct_snoc hd hl⟩
      intro y hy
      rcases List.mem_append.1 hy with hy | hy
      · exact hg y hy
      · rw [List.mem_singleton.1 hy]; exact hx
    | some y =>
      obtain ⟨hm, ha⟩ := lookup_some hl
      rw [merge_old hx (hg y hm) hl hd (hv y hm ha).2]
      refine ⟨rfl, ?_, ?_⟩
      · intro z hz
        simp only [Option.isSome_some, if_true, List.mem_map] at hz
        obtain ⟨w, hw, rfl⟩ := hz
        split
        · next hwa => exact more_good (hg w hw) hx hwa (hv w hw hwa).1 (hv w hw hwa).2
        · exact hg w hw
      · simp only [Option.isSome_some, if_true, Distinct]
        rw [List.pairwise_map]
        refine List.Pairwise.imp ?_ hd
        intro a b hab
        split <;> split <;> exact hab
  | remove n =>
    have hn : n ≠ [] := h
    refine ⟨?_, fun y hy => hg y (mem_without.1 hy).1, hd.filter _⟩
    simp only [Op.apply, removeHeader, Op.run]
    rw [if_neg hn, tdel_stored]

theorem reach_stored {ops : List Op} {hs : List Hdr} (h : Reach ops hs) : applyAll [] ops = some (hs.map stored) ∧ (∀ h ∈ hs, h.Good) ∧ Distinct hs := by
  induction h with
  | nil => exact ⟨rfl, by simp, List.Pairwise.nil⟩
  | snoc _ hop ih =>
    obtain ⟨h1, h2, h3⟩ := ih
    obtain ⟨g1, g2, g3⟩ := op_step h2 h3 hop
    refine ⟨?_, g2, g3⟩
    rw [applyAll_append, h1]
    simp only [Option.bind_some, applyAll, g1]

theorem headerText_eq {x : Hdr} (h : x.Good) : headerText ⟨x.name, x.parts⟩ = some x.text := by
  unfold headerText
  have e : (x.parts.map fun v => (valueString v).getD []) = x.parts.map partText := by
    apply List.map_congr_left
    intro v _
    rw [valueString_eq]; rfl
  simp only [e]
  by_cases hw : x.field.whole
  · obtain ⟨p, h1, h2⟩ := whole_one h hw
    rw [h1, ← h2]; rfl
  · rw [if_neg (fun hn => hw ((nosplit_hdr h).1 hn))]
    cases hp : x.parts with
    | nil => exact absurd (by simp [Hdr.field, hp]) h.field.parts
    | cons y ys => rw [List.map_cons, joinStr_eq, Hdr.text, Field.text, Hdr.field, hp]; rfl

/-- **C86.** After any history of setting, adding and removing headers, all of which succeed, the names are those of the
headers that are left, in the order in which they came, and under every name, whatever its case, is the text of the header. -/
theorem headers_kept {ops : List Op} {hs : List Hdr} (h : Reach ops hs) : ∃ s, applyAll [] ops = some s ∧ headerKeys s = hs.map (·.name) ∧
    ∀ n, getHeader s n = (lookup hs n).map (·.text) := by
  obtain ⟨h1, h2, _⟩ := reach_stored h
  refine ⟨_, h1, ?_, ?_⟩
  · simp [headerKeys, stored, Function.comp_def]
  · intro n
    rw [getHeader, lookup_spec]
    cases hl : lookup hs n with
    | none => rfl
    | some y => exact headerText_eq (h2 y (lookup_some hl).1)

theorem set_stored {hs : List Hdr} (hg : ∀ h ∈ hs, h.Good) (hd : Distinct hs) (s : Store) : setHeaders s (hs.map fun h => (h.name, h.text)) false = some (hs.map stored) := by
  have key : ∀ (hs acc : List Hdr), (∀ h ∈ hs, h.Good) → Distinct (acc ++ hs) → (hs.map fun h => (h.name, h.text)).foldlM mergeOne (acc.map stored) = some ((acc ++ hs).map stored) := by
    intro hs
    induction hs with
    | nil => intro acc _ _; simp
    | cons x hs ih =>
      intro acc h1 h2
      rw [List.map_cons, List.foldlM_cons, merge_new (h1 x (by simp)) (lookup_none.2 fun y hy => (List.pairwise_append.1 h2).2.2 y hy x (by simp))]
      have e : acc ++ x :: hs = acc ++ [x] ++ hs := by simp
      rw [e] at h2 ⊢
      exact ih _ (fun y hy => h1 y (by simp [hy])) h2
  exact key hs [] hg hd

/-- **C86**, all at once: headers given as a table with different names replace those that were there, and are found. -/
theorem headers_set {hs : List Hdr} (hg : ∀ h ∈ hs, h.Good) (hd : Distinct hs) (s : Store) : ∃ s', setHeaders s (hs.map fun h => (h.name, h.text)) false = some s' ∧
    headerKeys s' = hs.map (·.name) ∧ ∀ n, getHeader s' n = (lookup hs n).map (·.text) := by
  refine ⟨_, set_stored hg hd s, ?_, ?_⟩
  · simp [headerKeys, stored, Function.comp_def]
  · intro n
    rw [getHeader, lookup_spec]
    cases hl : lookup hs n with
    | none => rfl
    | some y => exact headerText_eq (hg y (lookup_some hl).1)

/-! ### Examples -/

/-- `Accept: text/html; q=0.5, */*`. -/
def hAccept : Hdr := ⟨[65, 99, 99, 101, 112, 116], [⟨[116, 101, 120, 116, 47, 104, 116, 109, 108], [([113], [48, 46, 53])]⟩, ⟨[42, 47, 42], []⟩]⟩
/-- `accept: a/b`. -/
def hMore : Hdr := ⟨[97, 99, 99, 101, 112, 116], [⟨[97, 47, 98], []⟩]⟩
/-- `Date: Sun, 06 Nov 1994 08:49:37 GMT`. -/
def hDate : Hdr := ⟨[68, 97, 116, 101], [⟨[83, 117, 110, 44, 32, 48, 54, 32, 78, 111, 118, 32, 49, 57, 57, 52, 32, 48, 56, 58, 52, 57, 58, 51, 55, 32, 71, 77, 84], []⟩]⟩

theorem noOuter_iff (s : List UInt8) : NoOuter s ↔ (s.head?.all fun c => !isSpace c) = true ∧ (s.getLast?.all fun c => !isSpace c) = true := by
  constructor
  · rintro ⟨h1, h2⟩
    constructor
    · cases s with
      | nil => rfl
      | cons c t => simp [h1 c t rfl]
    · rcases List.eq_nil_or_concat s with rfl | ⟨t, c, rfl⟩
      · rfl
      · simp [h2 c t (by simp)]
  · rintro ⟨h1, h2⟩
    constructor
    · rintro c t rfl
      simpa using h1
    · rintro c t rfl
      simpa using h2

instance (s : List UInt8) : Decidable (NoOuter s) := decidable_of_iff _ (noOuter_iff s).symm

theorem hAccept_good : hAccept.Good := by
  refine ⟨⟨by decide, by decide, by decide, by decide, by decide, by decide⟩, by decide, by decide, ?_, by decide⟩
  intro p hp
  simp only [hAccept, List.mem_cons, List.not_mem_nil, or_false] at hp
  rcases hp with rfl | rfl <;> exact ⟨by decide, by decide, by decide, by decide, by decide, by decide, by decide⟩

theorem hMore_good : hMore.Good := by
  refine ⟨⟨by decide, by decide, by decide, by decide, by decide, by decide⟩, by decide, by decide, ?_, by decide⟩
  intro p hp
  simp only [hMore, List.mem_cons, List.not_mem_nil, or_false] at hp
  subst hp; exact ⟨by decide, by decide, by decide, by decide, by decide, by decide, by decide⟩

theorem hDate_good : hDate.Good := by
  refine ⟨⟨by decide, by decide, by decide, by decide, by decide, by decide⟩, by decide, by decide, ?_, by decide⟩
  intro p hp
  simp only [hDate, List.mem_cons, List.not_mem_nil, or_false] at hp
  subst hp; exact ⟨by decide, by decide, by decide, by decide, by decide, by decide, by decide⟩

/-- A history: set, set, add under a name in other letters, set again, remove. -/
example : Reach [.set hAccept, .set hDate, .add hMore, .set hDate, .remove [72]] [hAccept.more hMore, hDate] := by
  have h1 := Reach.snoc .nil (show Op.Good [] (.set hAccept) from hAccept_good)
  have h2 := Reach.snoc h1 (show Op.Good _ (.set hDate) from hDate_good)
  have h3 := Reach.snoc h2 (op := .add hMore) ⟨hMore_good, by decide⟩
  have h4 := Reach.snoc h3 (show Op.Good _ (.set hDate) from hDate_good)
  exact Reach.snoc h4 (op := .remove [72]) (by simp [Op.Good])

example : getHeader [stored (hAccept.more hMore), stored hDate] [65, 67, 67, 69, 80, 84] = some [116, 101, 120, 116, 47, 104, 116, 109, 108, 59, 32, 113, 61, 48, 46, 53, 44, 32, 42, 47, 42, 44, 32, 97, 47, 98] := by decide +kernel

/-- A value with a second equals sign is cut, a comma in a quoted text is taken for the end of a value, equal values are
dropped; a header with an empty text has a name and no value. -/
theorem header_text_fails :
    (setHeader [] [88] [97, 59, 32, 107, 61, 98, 61] false).map (fun r => getHeader r.2 [88]) = some (some [97, 59, 32, 107, 61, 98]) ∧
    (setHeader [] [88] [97, 61, 34, 98, 44, 99, 34] false).map (fun r => getHeader r.2 [88]) = some (some [97, 61, 34, 98, 44, 32, 99, 34]) ∧
    (setHeader [] [88] [97, 44, 32, 98, 44, 32, 65] false).map (fun r => getHeader r.2 [88]) = some (some [97, 44, 32, 98]) ∧
    (setHeaders [] [([88], [])] false).map (fun s => (headerKeys s, getHeader s [88])) = some ([[88]], none) := by decide +kernel

end Verif.Http.Frame
