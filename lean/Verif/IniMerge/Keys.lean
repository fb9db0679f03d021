import Verif.Ini.Store
/- The names that an INI object lists can be used with it, and with others. -/
namespace Verif.IniMerge
open Verif.Ini
open Verif.Chr (toLower)

/-- No two blanks next to each other. -/
def Tidy (k : List UInt8) : Prop := ∀ a c d b, k = a ++ c :: d :: b → ¬ (Blank c ∧ Blank d)

theorem Tidy.left {s r : List UInt8} (h : Tidy (s ++ r)) : Tidy s := by
  intro a c d b e
  exact h a c d (b ++ r) (by simp [e])

theorem Tidy.right {s r : List UInt8} (h : Tidy (s ++ r)) : Tidy r := by
  intro a c d b e
  exact h (s ++ a) c d b (by simp [e])

theorem not_blank_slash : ¬ Blank 47 := by decide

theorem Tidy.join {s r : List UInt8} (hs : Tidy s) (hr : Tidy r) : Tidy (s ++ 47 :: r) := by
  intro a c d b e
  rcases List.append_eq_append_iff.1 e with ⟨a', e1, e2⟩ | ⟨c', e1, e2⟩
  · cases a' with
    | nil =>
      simp only [List.nil_append, List.cons.injEq] at e2
      exact fun h => not_blank_slash (e2.1 ▸ h.1)
    | cons x a' =>
      simp only [List.cons_append, List.cons.injEq] at e2
      exact hr a' c d b e2.2
  · cases c' with
    | nil =>
      simp only [List.nil_append, List.cons.injEq] at e2
      exact fun h => not_blank_slash (e2.1 ▸ h.1)
    | cons x c' =>
      cases c' with
      | nil =>
        simp only [List.cons_append, List.nil_append, List.cons.injEq] at e2
        exact fun h => not_blank_slash (e2.2.1 ▸ h.2)
      | cons y c' =>
        simp only [List.cons_append, List.cons.injEq] at e2
        obtain ⟨rfl, rfl, _⟩ := e2
        exact hs a c d c' e1

/-- The parts that are printed are tidy. -/
def TidyLook (l : List (List UInt8 × List UInt8)) : Prop := ∀ p ∈ l, Tidy p.2

theorem TidyLook.ins {l : List (List UInt8 × List UInt8)} (h : TidyLook l) {k v : List UInt8} (hv : Tidy v) : TidyLook (ins l k v) := by
  intro p hp
  rcases ins_mem hp with h1 | ⟨_, h1, _⟩
  · exact h p h1
  · rw [h1]; exact hv

theorem addNames_tidy {ini : Ini} {key : List UInt8} (h : TidyLook ini.lookup) (ht : Tidy key) (hne : key ≠ []) : TidyLook (addNames ini key) := by
  unfold addNames
  rcases split_cases key with h47 | ⟨s, r, e1, e2⟩
  · rw [splitKey_plain h47 hne]
    exact h.ins ht
  · rw [e1] at ht
    have hs : Tidy s := ht.left
    have hr : Tidy r := by
      have : Tidy ((s ++ [47]) ++ r) := by simpa using ht
      exact this.right
    have fin : ∀ l, TidyLook l → TidyLook (if s ≠ [] ∧ (look l (fullKey (some s) [])).isNone = true then Ini.ins l (intKey ini.ign (fullKey (some s) [])) s else l) := by
      intro l hl
      split
      · exact hl.ins hs
      · exact hl
    rw [e1, splitKey_slash e2]
    by_cases h0 : r = []
    · simp only [h0, if_true]
      exact fin _ h
    · simp only [h0, if_false]
      exact fin _ (h.ins hr)

theorem kvPut_tidy {ini : Ini} {key : List UInt8} (f : Kvs → List UInt8 → Bool × Kvs) (h : TidyLook ini.lookup) (ht : Tidy key) : TidyLook (kvPut ini key f).2.lookup := by
  unfold kvPut
  by_cases hb : badKey key = true
  · rw [if_pos hb]; exact h
  · rw [if_neg hb]
    have hne : key ≠ [] := by
      rintro rfl; exact hb (by decide)
    dsimp only
    split
    · exact addNames_tidy h ht hne
    · exact h

theorem exec_tidy {ini : Ini} (o : Op) (h : TidyLook ini.lookup) (ht : Tidy o.key) : TidyLook (exec ini o).2.lookup := by
  cases o with
  | set k v => exact kvPut_tidy _ h ht
  | insert k v => exact kvPut_tidy _ h ht
  | addKey k => exact kvPut_tidy _ h ht
  | remove k =>
    simp only [exec, kvRemove]
    split
    · exact h
    · split
      · intro p hp
        exact h p (List.mem_filter.1 hp).1
      · exact h
  | removeVals k =>
    simp only [exec, kvRemoveVals]
    split <;> exact h
  | removeAt k i =>
    simp only [exec, kvRemoveAt]
    split <;> exact h

theorem run_tidy {ops : List Op} (hp : ∀ o ∈ ops, Plain true o.key) : TidyLook (run true ops).lookup := by
  induction ops using snocRec with
  | h0 => intro p h; simp [run, create] at h
  | h1 ops o ih =>
    rw [run_snoc]
    exact exec_tidy o (ih fun o h => hp o (by simp [h])) (hp o (by simp) rfl).1

theorem kvKeys_tidy {ini : Ini} (h : TidyLook ini.lookup) : ∀ k ∈ kvKeys ini, Tidy k := by
  intro k hk
  unfold kvKeys at hk
  obtain ⟨p, hp, rfl⟩ := List.mem_map.1 hk
  have hp := h p (List.mem_filter.1 hp).1
  cases hq : (splitKey p.1).1.bind fun s => look ini.lookup (fullKey (some s) []) with
  | none => simpa [fullKey] using hp
  | some v =>
    obtain ⟨s, _, hs⟩ := Option.bind_eq_some_iff.1 hq
    obtain ⟨q, hq', _, e⟩ := look_mem hs
    have hv := h q hq'
    rw [e] at hv
    have e4 : fullKey (some v) p.2 = v ++ 47 :: p.2 := by simp [fullKey]
    rw [e4]
    exact hv.join hp

theorem names_mem {ign : Bool} {ops : List Op} : ∀ n ∈ names ign ops, ∃ o ∈ ops, Valid o.key ∧ n = nameOf ign o.key := by
  induction ops using snocRec with
  | h0 => intro n h; simp [names] at h
  | h1 ops o ih =>
    intro n hn
    rw [names_snoc] at hn
    have old : n ∈ names ign ops → ∃ o' ∈ ops ++ [o], Valid o'.key ∧ n = nameOf ign o'.key := by
      intro h
      obtain ⟨o', h1, h2⟩ := ih n h
      exact ⟨o', by simp [h1], h2⟩
    by_cases hv : Valid o.key
    · rw [if_pos hv] at hn
      have new : ∀ k, o.key = k → n ∈ addName (names ign ops) (nameOf ign k) → ∃ o' ∈ ops ++ [o], Valid o'.key ∧ n = nameOf ign o'.key := by
        intro k e h
        rcases addName_mem' h with h | h
        · exact old h
        · exact ⟨o, by simp, hv, by rw [h, e]⟩
      cases o with
      | set k v => exact new k rfl hn
      | insert k v => exact new k rfl hn
      | addKey k => exact new k rfl hn
      | remove k => exact old (List.mem_filter.1 hn).1
      | removeVals k => exact old hn
      | removeAt k i => exact old hn
    · rw [if_neg hv] at hn
      exact old hn

/-- A key that can be used with every object. -/
structure Usable (ign : Bool) (k : List UInt8) : Prop where
  plain : Plain ign k
  valid : Valid k
  sect : Sectioned ign k

theorem valid_of_nameOf {ign : Bool} {k : List UInt8} (h : Valid (nameOf ign k)) : Valid k := by
  cases ign with
  | false => exact h
  | true =>
    refine ⟨?_, ?_⟩
    · rintro rfl; exact h.1 rfl
    · intro e
      apply h.2
      obtain ⟨l, rfl⟩ := List.getLast?_eq_some_iff.1 e
      rw [nameOf_append]
      have : nameOf true [47] = [47] := by decide
      rw [this]; simp

theorem same_head {a b : List UInt8} (h : Same a b) : a.head? = some 47 ↔ b.head? = some 47 := by
  have : (a.map toLower).head? = (b.map toLower).head? := congrArg List.head? h
  rw [List.head?_map, List.head?_map] at this
  cases a with
  | nil => cases b with
    | nil => simp
    | cons y b => simp at this
  | cons x a => cases b with
    | nil => simp at this
    | cons y b =>
      simp only [List.head?_cons, Option.map_some, Option.some.injEq] at this ⊢
      rw [← toLower_slash x, ← toLower_slash y, this]

/-- The listed keys can be used. -/
theorem kvKeys_usable {ign : Bool} {ops : List Op} (hp : ∀ o ∈ ops, Plain ign o.key) (hs : ∀ o ∈ ops, Sectioned ign o.key) :
    ∀ k ∈ kvKeys (run ign ops), Usable ign k := by
  intro k hk
  have hpr := (run_shown hp hs).print _ rfl
  have hm : (nameOf ign k).map toLower ∈ (names ign ops).map (·.map toLower) := by
    rw [← hpr]; exact List.mem_map.2 ⟨k, hk, rfl⟩
  obtain ⟨n, hn, e⟩ := List.mem_map.1 hm
  have e : Same n (nameOf ign k) := e
  obtain ⟨o, ho, hv, rfl⟩ := names_mem n hn
  have hvn := (same_valid e).1 (nameOf_valid (hp o ho) hv)
  refine ⟨?_, valid_of_nameOf hvn, fun h => hs o ho ((same_head e).2 h)⟩
  intro hi
  subst hi
  exact ⟨kvKeys_tidy (run_tidy hp) k hk, fun _ => hvn⟩

theorem kvKeys_apart {ign : Bool} {ops : List Op} (hp : ∀ o ∈ ops, Plain ign o.key) (hs : ∀ o ∈ ops, Sectioned ign o.key) :
    (kvKeys (run ign ops)).Pairwise fun a b => ¬ Same (nameOf ign a) (nameOf ign b) := by
  have hpr := (run_shown hp hs).print _ rfl
  have ha := (run_after hp).kvs.apart
  have h1 : ((names ign ops).map (·.map toLower)).Pairwise (· ≠ ·) := by
    rw [List.pairwise_map]; exact ha
  rw [← hpr, List.pairwise_map] at h1
  exact h1

/-- A name with values is listed. -/
theorem kvKeys_listed {ign : Bool} {ops : List Op} {ini : Ini} (ha : After ign ops ini) (hs : Shown ign ops ini) {n : List UInt8} (h : vals ign n ops ≠ []) :
    ∃ k ∈ kvKeys ini, Same (nameOf ign k) n := by
  have hpr := hs.print ini rfl
  have : ∃ m ∈ names ign ops, Same m n := Classical.byContradiction fun hn => h (ha.kvs.none n hn)
  obtain ⟨m, hm, e⟩ := this
  have hm' : m.map toLower ∈ (kvKeys ini).map (fun k => (nameOf ign k).map toLower) := by
    rw [hpr]; exact List.mem_map.2 ⟨m, hm, rfl⟩
  obtain ⟨k, hk, e'⟩ := List.mem_map.1 hm'
  exact ⟨k, hk, Eq.trans e' e⟩

end Verif.IniMerge
