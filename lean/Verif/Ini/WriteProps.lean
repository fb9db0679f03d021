import Verif.Ini.Print
/- C110: what is written is read back. -/
namespace Verif.Ini
open Verif.Chr Verif.Str

/-! ## Names -/

theorem split_unique {a b c d : List UInt8} (ha : 47 ∉ a) (hc : 47 ∉ c) (h : a ++ 47 :: b = c ++ 47 :: d) : a = c ∧ b = d := by
  induction a generalizing c with
  | nil =>
    cases c with
    | nil => simpa using h
    | cons x c => simp at h; exact absurd h.1 (fun e => hc (by simp [e]))
  | cons y a ih =>
    cases c with
    | nil => simp at h; exact absurd h.1 (fun e => ha (by simp [e]))
    | cons x c =>
      simp only [List.cons_append, List.cons.injEq] at h
      obtain ⟨h1, h2⟩ := ih (fun hm => ha (by simp [hm])) (fun hm => hc (by simp [hm])) h.2
      exact ⟨by rw [h.1, h1], h2⟩

theorem nameOf_spread {k : List UInt8} (h : ∀ c ∈ k, ¬ Blank c) : Spread k := by
  rintro a c d b rfl ⟨h1, _⟩
  exact h c (by simp) h1

theorem spread_slash {s r : List UInt8} (hs : Spread s) (hr : Spread r) : Spread (s ++ 47 :: r) := by
  intro a c d b e ⟨h1, h2⟩
  have hb : ¬ Blank 47 := by decide
  rcases List.append_eq_append_iff.1 e with ⟨x, e1, e2⟩ | ⟨x, e1, e2⟩
  · cases x with
    | nil => simp at e2; exact hb (e2.1 ▸ h1)
    | cons y x =>
      simp only [List.cons_append, List.cons.injEq] at e2
      exact hr x c d b e2.2 ⟨h1, h2⟩
  · cases x with
    | nil => simp at e2; exact hb (e2.1 ▸ h1)
    | cons y x =>
      simp only [List.cons_append, List.cons.injEq] at e2
      cases x with
      | nil => simp at e2; exact hb (e2.2.1 ▸ h2)
      | cons z x =>
        simp only [List.cons_append, List.cons.injEq] at e2
        exact hs a c d x (by rw [e1, e2.1, e2.2.1]) ⟨h1, h2⟩

theorem GoodKey.valid {st : Settings} {ign : Bool} {k : List UInt8} (h : GoodKey st ign k) : Valid k := by
  rcases h with h | ⟨s, r, rfl, _, h⟩
  · exact path_valid (sec := none) h.ne h.slash
  · exact path_valid (sec := some s) h.ne h.slash

theorem GoodKey.plain {st : Settings} {ign : Bool} {k : List UInt8} (h : GoodKey st ign k) : Plain ign k := by
  rintro rfl
  rcases h with h | ⟨s, r, rfl, hs, h⟩
  · exact ⟨h.spread rfl, fun _ => path_valid (sec := none) h.name fun hm => h.slash (nameOf_mem hm)⟩
  · constructor
    · exact spread_slash (hs.spread rfl) (h.spread rfl)
    · intro _
      rw [nameOf_slash]
      exact path_valid (sec := some (nameOf true s)) h.name fun hm => h.slash (nameOf_mem hm)

theorem GoodKey.sectioned {st : Settings} {ign : Bool} {k : List UInt8} (h : GoodKey st ign k) : Sectioned ign k := by
  unfold Sectioned
  rcases h with h | ⟨s, r, rfl, hs, h⟩
  · intro e
    exact h.slash (nameOf_mem (List.mem_of_mem_head? e))
  · rw [nameOf_slash]
    intro e
    cases hn : nameOf ign s with
    | nil => exact hs.name hn
    | cons c t =>
      rw [hn] at e
      simp at e
      exact hs.slash (nameOf_mem (ign := ign) (by rw [hn, e]; simp))

theorem names_from {ign : Bool} {ops : List Op} {n : List UInt8} (h : n ∈ names ign ops) : ∃ o ∈ ops, n = nameOf ign o.key := by
  induction ops using snocRec with
  | h0 => cases h
  | h1 ops o ih =>
    rw [names_snoc] at h
    have add : ∀ k, n ∈ addName (names ign ops) k → n ∈ names ign ops ∨ n = k := by
      intro k h
      unfold addName at h
      split at h
      · exact .inl h
      · rcases List.mem_append.1 h with h | h
        · exact .inl h
        · exact .inr (List.mem_singleton.1 h)
    have old : n ∈ names ign ops → ∃ o' ∈ ops ++ [o], n = nameOf ign o'.key := fun h => by
      obtain ⟨o', h1, h2⟩ := ih h
      exact ⟨o', by simp [h1], h2⟩
    split at h
    · cases o with
      | set k v => exact (add _ h).elim old fun e => ⟨.set k v, by simp, e⟩
      | insert k v => exact (add _ h).elim old fun e => ⟨.insert k v, by simp, e⟩
      | addKey k => exact (add _ h).elim old fun e => ⟨.addKey k, by simp, e⟩
      | remove k => exact old (List.mem_filter.1 h).1
      | removeVals k => exact old h
      | removeAt k i => exact old h
    · exact old h

/-- The value of a call. -/
def Op.val : Op → Option (List UInt8)
  | set _ v | insert _ v => v
  | _ => none

theorem vals_from {ign : Bool} {ops : List Op} {n v : List UInt8} (h : some v ∈ vals ign n ops) : ∃ o ∈ ops, o.val = some v := by
  induction ops using snocRec with
  | h0 => cases h
  | h1 ops o ih =>
    rw [vals_snoc] at h
    have old : some v ∈ vals ign n ops → ∃ o' ∈ ops ++ [o], o'.val = some v := fun h => by
      obtain ⟨o', h1, h2⟩ := ih h
      exact ⟨o', by simp [h1], h2⟩
    split at h
    · cases o with
      | set k w => exact ⟨.set k w, by simp, (List.mem_singleton.1 h).symm⟩
      | insert k w =>
        rcases List.mem_append.1 h with h | h
        · exact old h
        · exact ⟨.insert k w, by simp, (List.mem_singleton.1 h).symm⟩
      | addKey k => exact old h
      | remove k => cases h
      | removeVals k => cases h
      | removeAt k i => exact old (List.mem_of_mem_eraseIdx h)
    · exact old h

theorem GoodKey.stored {st : Settings} {ign : Bool} {k : List UInt8} (h : GoodKey st ign k) : Stored ign (nameOf ign k) := by
  refine ⟨nameOf_valid h.plain h.valid, h.sectioned, ?_⟩
  intro s r e _
  cases ign with
  | false => rfl
  | true =>
    have hb : ∀ c ∈ s, ¬ Blank c := fun c hc => nameOf_noBlank k c (by rw [e]; simp [hc])
    rw [intKey_spread fun _ => nameOf_spread hb]
    simp only [nameOf, if_true]
    apply List.filter_eq_self.2
    intro c hc
    exact decide_eq_true (hb c hc)

/-! ## The table of names -/

/-- Names in the table that can be written. -/
def Goods (st : Settings) (ign : Bool) (l : List (List UInt8 × List UInt8)) : Prop :=
  ∀ p ∈ l, (p.1.getLast? = some 47 → GoodSec st ign p.2) ∧ (p.1.getLast? ≠ some 47 → GoodName st ign p.2)

theorem GoodSec.reduced {st : Settings} {ign : Bool} {s : List UInt8} (h : GoodSec st ign s) : GoodSec st ign (nameOf ign s) := by
  refine ⟨⟨h.bare.2, by rw [nameOf_nameOf]; exact h.bare.2⟩, fun c hc => h.clean c (nameOf_mem hc), fun hm => h.close (nameOf_mem hm), fun hm => h.slash (nameOf_mem hm), by rw [nameOf_nameOf]; exact h.name, ?_⟩
  rintro rfl
  exact nameOf_spread (nameOf_noBlank s)

theorem Goods.sec {st : Settings} {ign : Bool} {l : List (List UInt8 × List UInt8)} (h : Goods st ign l) {s : List UInt8} (hs : GoodSec st ign s) {n : List UInt8} (hn : n.getLast? = some 47) : Goods st ign (ins l n s) := by
  intro p hp
  rcases ins_mem hp with hp | ⟨e, e2, _⟩
  · exact h p hp
  · rw [e2]
    exact ⟨fun _ => hs, fun hx => absurd ((same_last e).2 hn) hx⟩

theorem Goods.name {st : Settings} {ign : Bool} {l : List (List UInt8 × List UInt8)} (h : Goods st ign l) {s : List UInt8} (hs : GoodName st ign s) {n : List UInt8} (hn : n.getLast? ≠ some 47) : Goods st ign (ins l n s) := by
  intro p hp
  rcases ins_mem hp with hp | ⟨e, e2, _⟩
  · exact h p hp
  · rw [e2]
    exact ⟨fun hx => absurd ((same_last e).1 hx) hn, fun _ => hs⟩

theorem intKey_sec {ign : Bool} {s : List UInt8} (h : ign = true → Spread s) : intKey ign (s ++ [47]) = nameOf ign s ++ [47] := by
  rw [intKey_spread fun e => spread_slash (h e) (r := []) (by rintro a c d b e; simp at e), nameOf_slash]
  cases ign <;> rfl

theorem goods_put {st : Settings} {ini : Ini} (h : Goods st ini.ign ini.lookup) {key : List UInt8} (hk : GoodKey st ini.ign key) : Goods st ini.ign (addNames ini key) := by
  have hl : (intKey ini.ign key).getLast? ≠ some 47 := by
    rw [intKey_plain hk.plain]; exact (nameOf_valid hk.plain hk.valid).2
  unfold addNames
  rcases hk with hk | ⟨s, r, rfl, hs, hr⟩
  · rw [splitKey_plain hk.slash hk.ne]
    exact h.name hk hl
  · rw [splitKey_slash hs.slash, if_neg hr.ne]
    simp only
    split
    · have e : (intKey ini.ign (fullKey (some s) [])).getLast? = some 47 := by
        have e1 : fullKey (some s) [] = s ++ [47] := by simp [fullKey]
        rw [e1, intKey_sec hs.spread]; simp
      exact (h.name hr hl).sec hs e
    · exact h.name hr hl

theorem kvPut_lookup (ini : Ini) (key : List UInt8) (f : Kvs → List UInt8 → Bool × Kvs) : ((kvPut ini key f).2.lookup = ini.lookup ∨ (kvPut ini key f).2.lookup = addNames ini key) ∧
    (kvPut ini key f).2.elements = ini.elements ∧ (kvPut ini key f).2.sections = ini.sections ∧ (kvPut ini key f).2.ign = ini.ign := by
  unfold kvPut
  split
  · exact ⟨.inl rfl, rfl, rfl, rfl⟩
  · dsimp only
    split
    · exact ⟨.inr rfl, rfl, rfl, rfl⟩
    · exact ⟨.inl rfl, rfl, rfl, rfl⟩

theorem exec_keeps (ini : Ini) (o : Op) : (exec ini o).2.elements = ini.elements ∧ (exec ini o).2.sections = ini.sections ∧ (exec ini o).2.ign = ini.ign := by
  cases o with
  | set k v => exact (kvPut_lookup ini k _).2
  | insert k v => exact (kvPut_lookup ini k _).2
  | addKey k => exact (kvPut_lookup ini k _).2
  | remove k => simp only [exec, kvRemove]; split <;> (try split) <;> exact ⟨rfl, rfl, rfl⟩
  | removeVals k => simp only [exec, kvRemoveVals]; split <;> exact ⟨rfl, rfl, rfl⟩
  | removeAt k i => simp only [exec, kvRemoveAt]; split <;> exact ⟨rfl, rfl, rfl⟩

theorem exec_goods {st : Settings} {ini : Ini} (h : Goods st ini.ign ini.lookup) {o : Op} (hk : GoodKey st ini.ign o.key) : Goods st ini.ign (exec ini o).2.lookup := by
  have put : ∀ f, GoodKey st ini.ign o.key → Goods st ini.ign (kvPut ini o.key f).2.lookup := by
    intro f hk
    rcases (kvPut_lookup ini o.key f).1 with e | e
    · rw [e]; exact h
    · rw [e]; exact goods_put h hk
  cases o with
  | set k v => exact put _ hk
  | insert k v => exact put _ hk
  | addKey k => exact put _ hk
  | remove k =>
    simp only [exec, kvRemove]
    split
    · exact h
    · split
      · exact fun p hp => h p (List.mem_filter.1 hp).1
      · exact h
  | removeVals k => simp only [exec, kvRemoveVals]; split <;> exact h
  | removeAt k i => simp only [exec, kvRemoveAt]; split <;> exact h

/-! ## Histories with writes -/

/-- A call, or writing the object. -/
inductive Step
  | op (o : Op)
  | write
deriving DecidableEq, Repr

/-- The object after a history. -/
def runs (st : Settings) (ign : Bool) (h : List Step) : Ini := h.foldl (fun ini s => match s with | .op o => (exec ini o).2 | .write => (write st ini).2) (create ign)

/-- The calls of a history. -/
def opsOf (h : List Step) : List Op := h.filterMap fun s => match s with | .op o => some o | .write => none

/-- What has to be so when the object is written, with the names that were there when it was written before: every key has a value;
several values are written in order; a section that was written has a key still. -/
structure Fit (st : Settings) (ign : Bool) (last : List (List UInt8)) (ops : List Op) : Prop where
  some : ∀ n ∈ names ign ops, vals ign n ops ≠ []
  keeps : ∀ n, (vals ign n ops).length ≤ 1 ∨ st.multi = .maintainOrder
  secs : ∀ n ∈ last, ∀ s r, n = s ++ 47 :: r → 47 ∉ s → ∃ n' ∈ names ign ops, ∃ s' r', n' = s' ++ 47 :: r' ∧ 47 ∉ s' ∧ Same s' s

/-- The names when the object was last written. -/
def lastNames (ign : Bool) (h : List Step) : List (List UInt8) := (h.foldl (fun a s => match s with | .op o => (a.1 ++ [o], a.2) | .write => (a.1, names ign a.1)) ([], [])).2

/-- Every write of a history is one of these. -/
def Smooth (st : Settings) (ign : Bool) (h : List Step) : Prop := ∀ a b, h = a ++ .write :: b → Fit st ign (lastNames ign a) (opsOf a)

/-- The object after a history that can be written. -/
structure Ready (st : Settings) (ign : Bool) (h : List Step) (ini : Ini) : Prop where
  after : After ign (opsOf h) ini
  shown : Shown ign (opsOf h) ini
  goods : Goods st ign ini.lookup
  made : ∃ pre hs, Made ini (lastNames ign h) pre hs

theorem lastNames_op (ign : Bool) (h : List Step) (o : Op) : lastNames ign (h ++ [.op o]) = lastNames ign h := by simp [lastNames]

theorem lastNames_write (ign : Bool) (h : List Step) : lastNames ign (h ++ [.write]) = names ign (opsOf h) := by
  have : ∀ (h : List Step) (a : List Op × List (List UInt8)), (h.foldl (fun a s => match s with | .op o => (a.1 ++ [o], a.2) | .write => (a.1, names ign a.1)) a).1 = a.1 ++ opsOf h := by
    intro h
    induction h with
    | nil => intro a; simp [opsOf]
    | cons s h ih =>
      intro a
      rw [List.foldl_cons, ih]
      cases s <;> simp [opsOf]
  unfold lastNames
  rw [List.foldl_append]
  show names ign _ = _
  rw [this]; rfl

theorem opsOf_op (h : List Step) (o : Op) : opsOf (h ++ [.op o]) = opsOf h ++ [o] := by simp [opsOf]

theorem opsOf_write (h : List Step) : opsOf (h ++ [.write]) = opsOf h := by simp [opsOf]

theorem runs_snoc (st : Settings) (ign : Bool) (h : List Step) (s : Step) : runs st ign (h ++ [s]) = match s with | .op o => (exec (runs st ign h) o).2 | .write => (write st (runs st ign h)).2 := by
  simp [runs, List.foldl_append]

theorem Made.of {a b : Ini} {ns ns' : List (List UInt8)} {pre : List Elem} {hs : List (List UInt8 × Option (List UInt8))} (m : Made a ns pre hs) (h1 : b.elements = a.elements) (h2 : b.sections = a.sections) (h3 : b.ign = a.ign)
    (hl : ∀ n ∈ ns, ∀ s r, n = s ++ 47 :: r → 47 ∉ s → ∃ n' ∈ ns', ∃ s' r', n' = s' ++ 47 :: r' ∧ 47 ∉ s' ∧ Same s' s) : Made b ns' pre hs := by
  obtain ⟨⟨t1, t2, t3, t4, t5, t6, t7⟩, m2, m3, m4, m5⟩ := m
  refine ⟨⟨h1 ▸ t1, t2, h2 ▸ t3, t4, h3 ▸ t5, t6, h2 ▸ t7⟩, m2, h2 ▸ m3, m4, ?_⟩
  intro p hp
  obtain ⟨n, hn, s, r, e, h47, hs⟩ := m5 p hp
  obtain ⟨n', hn', s', r', e', h47', hs'⟩ := hl n hn s r e h47
  exact ⟨n', hn', s', r', e', h47', hs'.trans hs⟩

/-- Bringing the tree up to date. -/
theorem Ready.update {st : Settings} {ign : Bool} {h : List Step} {ini : Ini} (r : Ready st ign h ini) (hk : ∀ o ∈ opsOf h, GoodKey st ign o.key) (hf : Fit st ign (lastNames ign h) (opsOf h)) :
    Ready st ign (h ++ [.write]) (updateTree st ini) ∧ ∀ k, treeVals (updateTree st ini) k = vals ign k (opsOf h) := by
  obtain ⟨pre, hs, m⟩ := r.made
  have m1 : Made ini (names ign (opsOf h)) pre hs := m.of rfl rfl rfl hf.secs
  have hst : ∀ n ∈ names ign (opsOf h), Stored ini.ign n := by
    intro n hn
    obtain ⟨o, ho, rfl⟩ := names_from hn
    rw [r.after.flag]; exact (hk o ho).stored
  obtain ⟨pre', hs', m2, g2, k2, v2, l2⟩ := updateTree_spec (st := st) m1 r.after.kvs hf.some hf.keeps hst
  have hsec : ∀ n ∈ names ign (opsOf h), ∀ s t, n = s ++ 47 :: t → 47 ∉ s → GoodSec st ign s ∧ nameOf ign s = s := by
    intro n hn s t e h47
    obtain ⟨o, ho, rfl⟩ := names_from hn
    rcases hk o ho with hx | ⟨s0, r0, e0, hx, _⟩
    · exact absurd (nameOf_mem (ign := ign) (by rw [e]; simp)) hx.slash
    · rw [e0, nameOf_slash] at e
      obtain ⟨e1, _⟩ := split_unique (fun hm => hx.slash (nameOf_mem hm)) h47 e
      rw [← e1]
      exact ⟨hx.reduced, nameOf_nameOf _ _⟩
  have hl := l2 (fun l => Printed ign l (names ign (opsOf h)) (fun _ => False) ∧ Goods st ign l) (by
    rintro l n hn s t e h47 ⟨p1, p2⟩
    obtain ⟨x1, x2⟩ := hsec n hn s t e h47
    have e1 : intKey ini.ign (s ++ [47]) = nameOf ign s ++ [47] := by rw [r.after.flag]; exact intKey_sec x1.spread
    rw [e1]
    exact ⟨p1.addSec h47 rfl (fun _ hx => hx.elim), p2.sec x1 (by simp)⟩) ⟨r.shown, r.goods⟩
  refine ⟨⟨?_, ?_, hl.2, pre', hs', ?_⟩, v2⟩
  · rw [opsOf_write]; exact r.after.of g2 k2
  · rw [opsOf_write]; exact hl.1
  · rw [lastNames_write]; exact m2

theorem runs_ready {st : Settings} {ign : Bool} (h : List Step) (hk : ∀ o ∈ opsOf h, GoodKey st ign o.key) (hf : Smooth st ign h) : Ready st ign h (runs st ign h) := by
  generalize hn : h.length = n
  induction n generalizing h with
  | zero =>
    cases List.length_eq_zero_iff.1 hn
    exact ⟨after_create ign, run_shown (ops := []) (by simp) (by simp), (by intro p hp; cases hp),
      [], [], ⟨rfl, (by intro e he; cases he), rfl, List.Pairwise.nil, by simp, by simp, (by intro p hp; cases hp)⟩, (by intro e he; cases he), (by intro p hp; cases hp), by simp, by simp⟩
  | succ n ih =>
    obtain ⟨h', s, rfl⟩ : ∃ h' s, h = h' ++ [s] := ⟨_, _, (List.dropLast_concat_getLast (by rintro rfl; simp at hn)).symm⟩
    have hk' : ∀ o ∈ opsOf h', GoodKey st ign o.key := by
      intro o ho
      apply hk
      unfold opsOf at ho ⊢
      rw [List.filterMap_append]; exact List.mem_append_left _ ho
    have r := ih h' hk' (fun a b e => hf a (b ++ [s]) (by rw [e]; simp)) (by simpa using hn)
    rw [runs_snoc]
    cases s with
    | op o =>
      have ho : GoodKey st ign o.key := hk o (by rw [opsOf_op]; simp)
      obtain ⟨k1, k2, k3⟩ := exec_keeps (runs st ign h') o
      have hi := r.after.flag
      refine ⟨?_, ?_, ?_, ?_⟩
      · rw [opsOf_op]; exact (exec_after r.after o ho.plain).2
      · rw [opsOf_op]; exact exec_shown r.after r.shown o ho.plain ho.sectioned
      · have := exec_goods (st := st) (ini := runs st ign h') (o := o) (by rw [hi]; exact r.goods) (by rw [hi]; exact ho)
        rwa [hi] at this
      · obtain ⟨pre, hs, m⟩ := r.made
        rw [lastNames_op]
        exact ⟨pre, hs, m.of k1 k2 k3 fun n hn s r e h47 => ⟨n, hn, s, r, e, h47, Same.refl _⟩⟩
    | write => exact (r.update hk' (hf h' [] rfl)).1

/-! ## Reading back -/

theorem vals_inserts (ign : Bool) (n : List UInt8) (L : List (List UInt8 × Option (List UInt8))) (hL : ∀ x ∈ L, Valid x.1) : vals ign n (L.map fun x => put true x.1 x.2) = given ign L n := by
  have : ∀ (L : List (List UInt8 × Option (List UInt8))), (∀ x ∈ L, Valid x.1) → ∀ a, (L.map fun x => put true x.1 x.2).foldl (fun vs o => if Valid o.key ∧ Same (nameOf ign o.key) n then o.change vs else vs) a = a ++ given ign L n := by
    intro L
    induction L with
    | nil => intro _ a; simp [given]
    | cons x L ih =>
      intro h a
      rw [List.map_cons, List.foldl_cons, ih fun y hy => h y (by simp [hy])]
      have hv := h x (by simp)
      unfold given
      by_cases hs : Same (nameOf ign x.1) n
      · simp [put, Op.key, Op.change, hv, hs]
      · simp [put, Op.key, hs]
  exact this L hL []

theorem vals_sets (ign : Bool) (n : List UInt8) (L : List (List UInt8 × Option (List UInt8))) (hL : ∀ x ∈ L, Valid x.1) : vals ign n (L.map fun x => put false x.1 x.2) = (given ign L n).getLast?.toList := by
  have : ∀ (L : List (List UInt8 × Option (List UInt8))), (∀ x ∈ L, Valid x.1) → ∀ a, (L.map fun x => put false x.1 x.2).foldl (fun vs o => if Valid o.key ∧ Same (nameOf ign o.key) n then o.change vs else vs) a =
      if given ign L n = [] then a else (given ign L n).getLast?.toList := by
    intro L
    induction L with
    | nil => intro _ a; simp [given]
    | cons x L ih =>
      intro h a
      rw [List.map_cons, List.foldl_cons, ih fun y hy => h y (by simp [hy])]
      have hv := h x (by simp)
      by_cases hs : Same (nameOf ign x.1) n
      · have e : given ign (x :: L) n = x.2 :: given ign L n := by simp [given, hs]
        rw [e]
        by_cases hg : given ign L n = []
        · simp [hg, put, Op.key, Op.change, hv, hs]
        · rw [if_neg hg, if_neg (by simp)]
          cases hg' : given ign L n with
          | nil => exact absurd hg' hg
          | cons y t => simp [List.getLast?_cons_cons]
      · have e : given ign (x :: L) n = given ign L n := by simp [given, hs]
        rw [e]
        simp [put, Op.key, hs]
  unfold vals
  rw [this L hL]
  split
  · rename_i h; rw [h]; rfl
  · rfl

theorem Printed.find {st : Settings} {ign : Bool} {l : List (List UInt8 × List UInt8)} {ns : List (List UInt8)} (h : Printed ign l ns (fun _ => False)) (hg : Goods st ign l) {n : List UInt8} (hn : n ∈ ns)
    {sec : Option (List UInt8)} {key : List UInt8} (hs : Same n (path sec key)) (hsec : ∀ s ∈ sec, 47 ∉ s) (hkey : sec = none → 47 ∉ key) (hlast : n.getLast? ≠ some 47) :
    ∃ p, look l (path sec key) = some p ∧ GoodName st ign p ∧ Same (nameOf ign p) key := by
  have hmem : n ∈ l.map (·.1) := by
    rw [← h.keys] at hn
    exact (List.mem_filter.1 hn).1
  obtain ⟨p, hp⟩ := Option.isSome_iff_exists.1 (look_isSome.2 ⟨n, hmem, hs⟩)
  obtain ⟨q, hq, q1, q2⟩ := look_mem hp
  have ql : q.1.getLast? ≠ some 47 := fun e => hlast ((same_last (q1.trans hs.symm)).1 e)
  refine ⟨p, hp, q2 ▸ (hg q hq).2 ql, ?_⟩
  rw [← q2]
  cases sec with
  | none => exact (h.key q hq fun hm => hkey rfl ((same_slash q1).1 hm)).trans q1
  | some s =>
    rcases split_cases q.1 with hx | ⟨a, b, e, ha⟩
    · exact absurd ((same_slash q1).2 (by simp [path])) hx
    · have hb : b ≠ [] := by rintro rfl; exact ql (by rw [e]; simp)
      have hx := q1
      rw [e] at hx
      exact (h.sub q hq a b e ha hb).1.trans (same_split ha (hsec s rfl) hx).2

theorem Printed.findSec {st : Settings} {ign : Bool} {l : List (List UInt8 × List UInt8)} {ns : List (List UInt8)} (h : Printed ign l ns (fun _ => False)) (hg : Goods st ign l) {s r : List UInt8} (hn : s ++ 47 :: r ∈ ns)
    (h47 : 47 ∉ s) (hr : r ≠ []) {x : List UInt8} (hs : Same s x) : ∃ q, look l (x ++ [47]) = some q ∧ GoodSec st ign q ∧ Same (nameOf ign q) x := by
  have hmem : s ++ 47 :: r ∈ l.map (·.1) := by
    rw [← h.keys] at hn
    exact (List.mem_filter.1 hn).1
  obtain ⟨p, hp, e⟩ := List.mem_map.1 hmem
  have hl := (h.sub p hp s r e h47 hr).2.elim id False.elim
  have hsame : Same (s ++ [47]) (x ++ [47]) := by unfold Same at hs ⊢; simp [hs]
  rw [look_congr hsame] at hl
  obtain ⟨q, hq⟩ := Option.isSome_iff_exists.1 hl
  obtain ⟨t, ht, t1, t2⟩ := look_mem hq
  have tl := (same_last t1).2 (by simp)
  refine ⟨q, hq, t2 ▸ (hg t ht).1 tl, ?_⟩
  have t3 := (h.sec t ht tl).1.trans t1
  rw [t2] at t3
  have t3 : (nameOf ign q ++ [47]).map toLower = (x ++ [47]).map toLower := t3
  have := congrArg List.dropLast t3
  simpa [Same] using this

/-- Any calls and writes, one more write, and reading the text back with the same settings: the new object has the values that the
history left under every name; and writing does not change the values of the object.  Missing: keys without values, sections that
lose all their keys after they were written, values and names that the format cannot hold, and several values of a key with other
settings than `M_INI_MULTIVALS_MAINTAIN_ORDER` and `M_INI_DUPKVS_COLLECT`; for all of these there is a case below that fails.
Objects that were read from a file before are not covered. -/
theorem roundtrip_partial {st : Settings} (hw : Writes st) (ign : Bool) (h : List Step) (hk : ∀ o ∈ opsOf h, GoodKey st ign o.key) (hv : ∀ o ∈ opsOf h, ∀ v ∈ o.val, Writable st v)
    (hf : Smooth st ign (h ++ [.write])) (hd : st.dup = .collect ∨ ∀ n, (vals ign n (opsOf h)).length ≤ 1) (h0 : names ign (opsOf h) ≠ []) :
    ∃ ini, read st ign (write st (runs st ign h)).1 = some (some ini) ∧ ∀ k, Plain ign k →
      kvVals ini k = vals ign (nameOf ign k) (opsOf h) ∧ (kvHas ini k = true ↔ vals ign (nameOf ign k) (opsOf h) ≠ []) ∧ kvVals (write st (runs st ign h)).2 k = vals ign (nameOf ign k) (opsOf h) := by
  have r := runs_ready h hk (fun a b e => hf a (b ++ [.write]) (by rw [e]; simp))
  have hfit : Fit st ign (lastNames ign h) (opsOf h) := hf h [] rfl
  obtain ⟨u, hu⟩ := r.update hk hfit
  have e2 : (write st (runs st ign h)).2 = updateTree st (runs st ign h) := rfl
  have e1 : (write st (runs st ign h)).1 = treeText st (updateTree st (runs st ign h)) (updateTree st (runs st ign h)).elements none := rfl
  rw [e1, e2]
  generalize updateTree st (runs st ign h) = i at u hu
  obtain ⟨pre, hs, m⟩ := u.made
  rw [lastNames_write] at m
  have hsh : Printed ign i.lookup (names ign (opsOf h)) (fun _ => False) := by have := u.shown; rwa [Shown, opsOf_write] at this
  have hki : Holds i.kvs (names ign (opsOf h)) (fun n => vals ign n (opsOf h)) := by have := u.after.kvs; rwa [opsOf_write] at this
  have hin : ∀ k v, v ∈ treeVals i k → (∃ n ∈ names ign (opsOf h), Same n k) ∧ v ∈ vals ign k (opsOf h) := by
    intro k v hm
    rw [hu] at hm
    exact ⟨Classical.byContradiction fun hx => (by have := hki.none k hx; rw [show vals ign k (opsOf h) = [] from this] at hm; cases hm), hm⟩
  have hlast : ∀ n ∈ names ign (opsOf h), n.getLast? ≠ some 47 := by
    intro n hn
    obtain ⟨o, ho, rfl⟩ := names_from hn
    exact (hk o ho).stored.valid.2
  have hwr : ∀ k v, some v ∈ treeVals i k → Writable st v := by
    intro k v hm
    obtain ⟨o, ho, e⟩ := vals_from (hin k _ hm).2
    exact hv o ho v e
  have hpre : ∀ key v, .kv key v none ∈ pre → v ∈ treeVals i key := by
    intro key v hm
    exact List.mem_append_left _ (occ_mem (sec := none) (c := none) (by rw [m.tree.split]; simp [hm]))
  have hins : ∀ p ∈ i.sections, ∀ key v, .kv key v none ∈ p.2 → v ∈ treeVals i (path (some p.1) key) := by
    intro p hp key v hm
    exact List.mem_append_right _ (List.mem_flatMap.2 ⟨p, hp, occ_mem (sec := some p.1) hm⟩)
  have hsl : ∀ p ∈ i.sections, 47 ∉ p.1 := by
    intro p hp
    have : p.1 ∈ hs.map (·.1) := by rw [m.tree.heads]; exact List.mem_map_of_mem (f := fun x : List UInt8 × List Elem => x.1) hp
    obtain ⟨q, hq, e⟩ := List.mem_map.1 this
    exact e ▸ (m.tree.name q hq).2.1
  obtain ⟨ls, L, a1, a2, a3, a4⟩ := tree_text hw (ign := ign) m
    (fun key v hm => by
      obtain ⟨⟨n, hn, hx⟩, _⟩ := hin key v (hpre key v hm)
      exact hsh.find u.goods hn (sec := none) hx (by simp) (fun _ => m.tree.root _ _ _ hm) (hlast n hn))
    (fun p hp key v hm => by
      obtain ⟨⟨n, hn, hx⟩, _⟩ := hin _ v (hins p hp key v hm)
      exact hsh.find u.goods hn (sec := some p.1) hx (fun s hs => by cases hs; exact hsl p hp) (by simp) (hlast n hn))
    (fun p hp => by
      obtain ⟨n, hn, s, t, e, h47, hx⟩ := m.live p hp
      have ht : t ≠ [] := by rintro rfl; exact hlast n hn (by rw [e]; simp)
      exact hsh.findSec u.goods (e ▸ hn) h47 ht hx)
    (fun key v hm => hwr _ v (hpre key _ hm))
    (fun p hp key v hm => hwr _ v (hins p hp key _ hm))
  have hft : fileText st ls none = treeText st i i.elements none := by rw [a1.text]; simp [fileText]
  have hne : fileText st ls none ≠ [] := by
    obtain ⟨n, hn⟩ := List.exists_mem_of_ne_nil _ h0
    have h1 := hfit.some n hn
    rw [← hu, ← a3] at h1
    intro hx
    have hls : ls = [] := by
      cases ls with
      | nil => rfl
      | cons l ls => simp [fileText] at hx
    have := a2 true
    rw [hls] at this
    have : L = [] := by
      cases L with
      | nil => rfl
      | cons x L => simp [calls] at this
    rw [this] at h1
    exact h1 rfl
  obtain ⟨ini, b1, b2⟩ := read_partial hw.sane ign ls none a1.good (by simp) (by simpa using a1.named) hne
  rw [hft] at b1
  refine ⟨ini, b1, fun k hpk => ?_⟩
  have hvals : vals ign (nameOf ign k) (calls (decide (st.dup = .collect)) none (ls ++ (none : Option Line).toList)) = vals ign (nameOf ign k) (opsOf h) := by
    rw [Option.toList_none, List.append_nil, a2]
    by_cases hc : st.dup = .collect
    · rw [decide_eq_true hc, vals_inserts _ _ _ a4, a3, hu]
    · rw [decide_eq_false hc, vals_sets _ _ _ a4, a3, hu]
      have hle := (hd.resolve_left hc) (nameOf ign k)
      match hx : vals ign (nameOf ign k) (opsOf h), hle with
      | [], _ => rfl
      | [v], _ => rfl
  obtain ⟨c1, c2⟩ := b2 k hpk
  rw [hvals] at c1 c2
  have := (u.after.ask k hpk).2.2.2
  rw [opsOf_write] at this
  exact ⟨c1, c2, this⟩

/-! ## Cases -/

/-- Settings that can hold several values: quotes, blanks around the equals sign, lines that end with CR and LF. -/
def several : Settings := { quoting with dup := .collect, multi := .maintainOrder, padBefore := true, padAfter := true, ending := some [13, 10] }

theorem several_writes : Writes several := ⟨⟨by decide, by decide, by decide, by decide, by decide, by decide, by decide⟩, by decide, .inr ⟨[13], rfl, by unfold Spaces; decide⟩⟩

/-- A key "S/K 1" with two values, one of them with blanks, quotes, a comment character and a line end, the other one empty; a key without a section, with a null
pointer; written; another section comes in, a value of the first key is replaced. -/
def sampleSteps : List Step :=
  [.op (.set [83, 47, 75, 32, 49] (some [32, 34, 35, 10, 120])), .op (.insert [115, 47, 107, 49] (some [])), .op (.set [98] none), .write, .op (.set [116, 47, 122] (some [121])), .op (.removeAt [83, 47, 107, 95, 49] 0), .op (.insert [83, 47, 107, 49] (some [119, 32, 119]))]

theorem spread_alone {k : List UInt8} (h : ∀ i < k.length, ¬ (Blank (k.getD i 0) ∧ Blank (k.getD (i + 1) 0))) : Spread k := by
  rintro a c d b rfl hb
  have := h a.length (by simp)
  simp at this
  exact this hb.1 hb.2

theorem goodName_of {st : Settings} {r : List UInt8} (h : r ≠ [] ∧ ((∀ c ∈ r.head?, isSpace c = false) ∧ ∀ c ∈ r.getLast?, isSpace c = false) ∧ (∀ c ∈ r, c ≠ st.delim ∧ c ≠ st.comment ∧ (st.quote ≠ 0 → c ≠ st.quote) ∧ c ≠ 0) ∧ st.kv ∉ r ∧
    r.head? ≠ some 91 ∧ 47 ∉ r ∧ nameOf true r ≠ [] ∧ ∀ i < r.length, ¬ (Blank (r.getD i 0) ∧ Blank (r.getD (i + 1) 0))) : GoodName st true r :=
  ⟨h.1, h.2.1, h.2.2.1, h.2.2.2.1, h.2.2.2.2.1, h.2.2.2.2.2.1, h.2.2.2.2.2.2.1, fun _ => spread_alone h.2.2.2.2.2.2.2⟩

theorem goodSec_of {st : Settings} {s : List UInt8} (h : (((∀ c ∈ s.head?, isSpace c = false) ∧ ∀ c ∈ s.getLast?, isSpace c = false) ∧ (∀ c ∈ (nameOf true s).head?, isSpace c = false) ∧ ∀ c ∈ (nameOf true s).getLast?, isSpace c = false) ∧
    (∀ c ∈ s, c ≠ st.delim ∧ c ≠ st.comment ∧ (st.quote ≠ 0 → c ≠ st.quote) ∧ c ≠ 0) ∧ 93 ∉ s ∧ 47 ∉ s ∧ nameOf true s ≠ [] ∧ ∀ i < s.length, ¬ (Blank (s.getD i 0) ∧ Blank (s.getD (i + 1) 0))) : GoodSec st true s :=
  ⟨h.1, h.2.1, h.2.2.1, h.2.2.2.1, h.2.2.2.2.1, fun _ => spread_alone h.2.2.2.2.2⟩

theorem sample_keys : ∀ o ∈ opsOf sampleSteps, GoodKey several true o.key := by
  intro o ho
  simp only [sampleSteps, opsOf, List.filterMap_cons, List.filterMap_nil, List.mem_cons, List.not_mem_nil, or_false] at ho
  rcases ho with rfl | rfl | rfl | rfl | rfl | rfl
  · exact .inr ⟨[83], [75, 32, 49], rfl, goodSec_of (by decide), goodName_of (by decide)⟩
  · exact .inr ⟨[115], [107, 49], rfl, goodSec_of (by decide), goodName_of (by decide)⟩
  · exact .inl (goodName_of (by decide))
  · exact .inr ⟨[116], [122], rfl, goodSec_of (by decide), goodName_of (by decide)⟩
  · exact .inr ⟨[83], [107, 95, 49], rfl, goodSec_of (by decide), goodName_of (by decide)⟩
  · exact .inr ⟨[83], [107, 49], rfl, goodSec_of (by decide), goodName_of (by decide)⟩

theorem sample_vals : ∀ o ∈ opsOf sampleSteps, ∀ v ∈ o.val, Writable several v := by
  intro o ho
  simp only [sampleSteps, opsOf, List.filterMap_cons, List.filterMap_nil, List.mem_cons, List.not_mem_nil, or_false] at ho
  rcases ho with rfl | rfl | rfl | rfl | rfl | rfl <;> intro v hv <;> simp only [Op.val, Option.mem_def, reduceCtorEq] at hv
  · cases hv; exact ⟨by decide, .inl (by decide)⟩
  · cases hv; exact ⟨by decide, .inr (by unfold Bare Clean; decide)⟩
  · cases hv; exact ⟨by decide, .inr (by unfold Bare Clean; decide)⟩
  · cases hv; exact ⟨by decide, .inr (by unfold Bare Clean; decide)⟩

theorem fit_of {st : Settings} {ign : Bool} {last : List (List UInt8)} {ops : List Op} (h1 : ∀ n ∈ names ign ops, vals ign n ops ≠ []) (h2 : st.multi = .maintainOrder) (h3 : ∀ n ∈ last, n ∈ names ign ops) : Fit st ign last ops :=
  ⟨h1, fun _ => .inr h2, fun n hn s r e h47 => ⟨n, h3 n hn, s, r, e, h47, Same.refl s⟩⟩

theorem smooth_of {st : Settings} {ign : Bool} {h : List Step} (hf : ∀ i < h.length, h[i]? = some .write → Fit st ign (lastNames ign (h.take i)) (opsOf (h.take i))) : Smooth st ign h := by
  rintro a b rfl
  have := hf a.length (by simp) (by simp)
  simpa using this

theorem sample_smooth : Smooth several true (sampleSteps ++ [.write]) := by
  apply smooth_of
  have : ∀ i < (sampleSteps ++ [Step.write]).length, (sampleSteps ++ [Step.write])[i]? = some .write →
      (∀ n ∈ names true (opsOf ((sampleSteps ++ [Step.write]).take i)), vals true n (opsOf ((sampleSteps ++ [Step.write]).take i)) ≠ []) ∧
      ∀ n ∈ lastNames true ((sampleSteps ++ [Step.write]).take i), n ∈ names true (opsOf ((sampleSteps ++ [Step.write]).take i)) := by decide +kernel
  intro i hi hw
  exact fit_of (this i hi hw).1 rfl (this i hi hw).2

example : ∃ ini, read several true (write several (runs several true sampleSteps)).1 = some (some ini) ∧ ∀ k, Plain true k →
    kvVals ini k = vals true (nameOf true k) (opsOf sampleSteps) ∧ (kvHas ini k = true ↔ vals true (nameOf true k) (opsOf sampleSteps) ≠ []) ∧ kvVals (write several (runs several true sampleSteps)).2 k = vals true (nameOf true k) (opsOf sampleSteps) :=
  roundtrip_partial several_writes true sampleSteps sample_keys sample_vals sample_smooth (.inl rfl) (by decide +kernel)

example : vals true [115, 47, 107, 49] (opsOf sampleSteps) = [some [], some [119, 32, 119]] ∧
    (write several (runs several true sampleSteps)).1 = [98, 13, 10, 91, 83, 93, 13, 10, 75, 32, 49, 32, 61, 32, 13, 10, 75, 32, 49, 32, 61, 32, 119, 32, 119, 13, 10, 91, 116, 93, 13, 10, 122, 32, 61, 32, 121, 13, 10] := by decide +kernel

/-- What is read back of an object, for one key. -/
def readBack (st : Settings) (ign : Bool) (h : List Step) (k : List UInt8) : Option (List (Option (List UInt8))) := ((read st ign (write st (runs st ign h)).1).bind id).map fun ini => kvVals ini k

/-- The value "a#b" is written without quotes, and read back as "a". -/
theorem comment_fails : readBack several false [.op (.set [107] (some [97, 35, 98]))] [107] = some [some [97]] := by decide +kernel

/-- A tab in front of the value is lost, a blank is not: only blanks are quoted. -/
theorem tab_fails : readBack several false [.op (.set [107] (some [9, 97]))] [107] = some [some [97]] ∧
    readBack several false [.op (.set [107] (some [32, 97]))] [107] = some [some [32, 97]] := by decide +kernel

/-- With the settings as they are created, without a quote character, a value with a blank in front is lost. -/
theorem noQuote_fails : readBack defaults false [.op (.set [107] (some [32, 97]))] [107] = some [some []] := by decide +kernel

/-- A key without values has one, a null pointer, when it is read back. -/
theorem noValue_fails : vals false [107] [.addKey [107]] = [] ∧ readBack several false [.op (.addKey [107])] [107] = some [none] := by decide +kernel

/-- `M_INI_MULTIVALS_USE_LAST` writes all values of a key the first time, the last one only the second time. -/
theorem useLast_fails : (write { quoting with multi := .useLast } (runs quoting false [.op (.set [107] (some [49])), .op (.insert [107] (some [50]))])).1 = [107, 61, 49, 10, 107, 61, 50, 10] ∧
    (write { quoting with multi := .useLast } (runs quoting false [.op (.set [107] (some [49])), .op (.insert [107] (some [50])), .write])).1 = [107, 61, 50, 10] := by decide +kernel

/-- A section loses its key, the object is written, and the section gets another key: the section is written twice, and its value is there twice when it is read back. -/
theorem twice_fails : vals false [97, 47, 121] [.set [97, 47, 120] (some [49]), .remove [97, 47, 120], .set [97, 47, 121] (some [50])] = [some [50]] ∧
    readBack several false [.op (.set [97, 47, 120] (some [49])), .write, .op (.remove [97, 47, 120]), .write, .op (.set [97, 47, 121] (some [50]))] [97, 47, 121] = some [some [50], some [50]] := by decide +kernel

/-- The key "/x" is written as "x". -/
theorem slash_fails : vals false [47, 120] [.set [47, 120] (some [49])] = [some [49]] ∧ readBack several false [.op (.set [47, 120] (some [49]))] [47, 120] ≠ some [some [49]] := by decide +kernel

end Verif.Ini
