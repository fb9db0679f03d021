import Verif.IniMerge.Keys
import Verif.IniMerge.Spec
/- What the loops of the merger leave behind. -/
namespace Verif.IniMerge
open Verif.Ini
open Verif.Chr (toLower)

/-- The object has these values under the names. -/
def Reach (ign : Bool) (m : Ini) (f : List UInt8 → List Val) : Prop :=
  ∃ ops, After ign ops m ∧ Shown ign ops m ∧ ∀ n, vals ign n ops = f n

theorem reach_created {new : Ini} {ign : Bool} (h : new.ign = ign) : Reach ign (createMerged new) (fun _ => []) := by
  refine ⟨[], ⟨h, holds_create⟩, ?_, fun _ => rfl⟩
  exact ⟨rfl, by simp [createMerged, create], by simp [createMerged, create], by simp [createMerged, create], by simp [createMerged, create]⟩

theorem Reach.op {ign : Bool} {m : Ini} {f : List UInt8 → List Val} (h : Reach ign m f) (o : Op) (hu : Usable ign o.key) :
    Reach ign (exec m o).2 (fun n => if Same (nameOf ign o.key) n then o.change (f n) else f n) := by
  obtain ⟨ops, ha, hs, hv⟩ := h
  refine ⟨ops ++ [o], (exec_after ha o hu.plain).2, exec_shown ha hs o hu.plain hu.sect, ?_⟩
  intro n
  rw [vals_snoc, hv]
  dsimp only
  by_cases e : Same (nameOf ign o.key) n
  · rw [if_pos ⟨hu.valid, e⟩, if_pos e]
  · rw [if_neg (fun h => e h.2), if_neg e]

theorem Reach.congr {ign : Bool} {m : Ini} {f g : List UInt8 → List Val} (h : Reach ign m f) (e : ∀ n, f n = g n) : Reach ign m g := by
  obtain ⟨ops, ha, hs, hv⟩ := h
  exact ⟨ops, ha, hs, fun n => by rw [hv, e]⟩

/-- Values are added to one key. -/
theorem Reach.adds {ign : Bool} {key : List UInt8} (hu : Usable ign key) : ∀ (vs : List Val) {m : Ini} {f : List UInt8 → List Val}, Reach ign m f →
    Reach ign (vs.foldl (fun m v => (kvInsert m key v).2) m) (fun n => if Same (nameOf ign key) n then f n ++ vs else f n) := by
  intro vs
  induction vs with
  | nil =>
    intro m f h
    exact h.congr fun n => by split <;> simp
  | cons v vs ih =>
    intro m f h
    have h1 := h.op (.insert key v) hu
    have h2 := ih h1
    refine h2.congr fun n => ?_
    by_cases e : Same (nameOf ign key) n
    · simp [Op.key, Op.change, e]
    · simp [Op.key, e]

theorem direct_vals {ign : Bool} {ops : List Op} {src : Ini} (h : After ign ops src) {key : List UInt8} (hp : Plain ign key) :
    (List.range (kvLen src key)).map (direct src key) = vals ign (nameOf ign key) ops :=
  (h.ask key hp).2.2.2

theorem Reach.insertAll {ign : Bool} {key : List UInt8} (hu : Usable ign key) {m src : Ini} {f : List UInt8 → List Val} (h : Reach ign m f) {ops : List Op} (hs : After ign ops src) :
    Reach ign (insertAll m src key) (fun n => if Same (nameOf ign key) n then f n ++ vals ign (nameOf ign key) ops else f n) := by
  have e : IniMerge.insertAll m src key = (vals ign (nameOf ign key) ops).foldl (fun m v => (kvInsert m key v).2) m := by
    unfold IniMerge.insertAll
    rw [← direct_vals hs hu.plain, List.foldl_map]
  rw [e]
  exact h.adds hu _

/-- A loop over keys, each round of which changes the values of its key only. -/
theorem Reach.loop {ign : Bool} (body : Ini → List UInt8 → Ini) (F : List UInt8 → List Val → List Val) :
    ∀ (ks : List (List UInt8)), (ks.Pairwise fun a b => ¬ Same (nameOf ign a) (nameOf ign b)) →
      (∀ k ∈ ks, ∀ m f, Reach ign m f → (∀ n n', Same n n' → f n = f n') → Reach ign (body m k) (fun n => if Same (nameOf ign k) n then F k (f n) else f n)) →
      ∀ m f, Reach ign m f → (∀ n n', Same n n' → f n = f n') →
        ∃ g, Reach ign (ks.foldl body m) g ∧ (∀ n n', Same n n' → g n = g n') ∧
          (∀ k ∈ ks, ∀ n, Same (nameOf ign k) n → g n = F k (f n)) ∧ (∀ n, (∀ k ∈ ks, ¬ Same (nameOf ign k) n) → g n = f n) := by
  intro ks
  induction ks with
  | nil => intro _ _ m f h hf; exact ⟨f, h, hf, by simp, fun _ _ => rfl⟩
  | cons k ks ih =>
    intro hap hb m f h hf
    rw [List.pairwise_cons] at hap
    have h1 := hb k (by simp) m f h hf
    have hf1 : ∀ n n', Same n n' → (if Same (nameOf ign k) n then F k (f n) else f n) = (if Same (nameOf ign k) n' then F k (f n') else f n') := by
      intro n n' e
      by_cases hs : Same (nameOf ign k) n
      · rw [if_pos hs, if_pos (hs.trans e), hf n n' e]
      · rw [if_neg hs, if_neg (fun h => hs (h.trans e.symm)), hf n n' e]
    obtain ⟨g, hg, hg1, hg2, hg3⟩ := ih hap.2 (fun k' hk' => hb k' (by simp [hk'])) _ _ h1 hf1
    refine ⟨g, hg, hg1, ?_, ?_⟩
    · intro k' hk' n hn
      rcases List.mem_cons.1 hk' with rfl | hk'
      · rw [hg3 n, if_pos hn]
        intro k2 hk2 e
        exact hap.1 k2 hk2 (hn.trans e.symm)
      · rw [hg2 k' hk' n hn, if_neg]
        intro e
        exact hap.1 k' hk' (e.trans hn.symm)
    · intro n hn
      rw [hg3 n (fun k' hk' => hn k' (by simp [hk'])), if_neg (hn k (by simp))]

/-- The three objects. -/
structure Three (ign : Bool) (oc on oo : List Op) : Prop where
  pc : ∀ o ∈ oc, Plain ign o.key
  sc : ∀ o ∈ oc, Sectioned ign o.key
  pn : ∀ o ∈ on, Plain ign o.key
  sn : ∀ o ∈ on, Sectioned ign o.key
  po : ∀ o ∈ oo, Plain ign o.key
  so : ∀ o ∈ oo, Sectioned ign o.key

variable {ign : Bool} {oc on oo : List Op}

theorem kvHas_eq (ops : List Op) (hp : ∀ o ∈ ops, Plain ign o.key) {k : List UInt8} (hk : Plain ign k) :
    kvHas (run ign ops) k = decide (vals ign (nameOf ign k) ops ≠ []) := by
  have h := ((run_after hp).ask k hk).2.2.1
  by_cases e : vals ign (nameOf ign k) ops = []
  · rw [Bool.eq_false_iff.2 (fun h' => h.1 h' e)]; simp [e]
  · rw [h.2 e]; simp [e]

theorem direct_zero (ops : List Op) (hp : ∀ o ∈ ops, Plain ign o.key) {k : List UInt8} (hk : Plain ign k) :
    direct (run ign ops) k 0 = (vals ign (nameOf ign k) ops).head?.getD none := by
  unfold direct
  rw [((run_after hp).ask k hk).2.1 0, List.head?_eq_getElem?]

theorem vals_same (ops : List Op) (hp : ∀ o ∈ ops, Plain ign o.key) (n n' : List UInt8) (e : Same n n') : vals ign n ops = vals ign n' ops :=
  (run_after hp).kvs.ok n n' e

/-- The choice between the values of one key. -/
def single' (r : Rules) (key : List UInt8) (c n o : Val) : Val :=
  if (valEq c o && !valEq c n) = true then (if useCur r 2 (some key) c n = true then c else n) else c

/-- The values of a key that has several. -/
def multi' (r : Rules) (key : List UInt8) (C N O : List Val) : List Val :=
  C.filter (fun v => found N v || (!found N v && !found O v) || (!found N v && found O v && useCur r 8 (some key) v none)) ++
    N.filter (fun v => !found C v && !found O v)

/-- What the merged object has under a name: that of a key of the current object, of the new one only, of neither. -/
theorem merged (T : Three ign oc on oo) (r : Rules) :
    ∃ f, Reach ign (merge r (run ign oc) (run ign on) (run ign oo)) f ∧
      (∀ key ∈ kvKeys (run ign oc), ∀ n, Same (nameOf ign key) n →
        f n = let C := vals ign n oc
              let N := vals ign n on
              let O := vals ign n oo
              let x := if C = [] ∧ O = [] then N else []
              if O = [] then x ++ C
              else if N = [] then (if useCur r 1 none (some key) none = true then C else [])
              else if C.length > 1 ∨ N.length > 1 then multi' r key C N O
              else [single' r key (C.head?.getD none) (N.head?.getD none) (O.head?.getD none)]) ∧
      (∀ n, (∀ key ∈ kvKeys (run ign oc), ¬ Same (nameOf ign key) n) →
        f n = if vals ign n oo = [] then vals ign n on else []) := by
  have aC := run_after T.pc
  have aN := run_after T.pn
  have uC := kvKeys_usable T.pc T.sc
  have uN := kvKeys_usable T.pn T.sn
  have hign : (run ign on).ign = ign := aN.flag
  -- 1. keys that only the new one has
  obtain ⟨f1, r1, c1, h1, h1'⟩ := Reach.loop (ign := ign) (keyNew (run ign oc) (run ign on) (run ign oo))
    (fun k x => if vals ign (nameOf ign k) oc = [] ∧ vals ign (nameOf ign k) oo = [] then x ++ vals ign (nameOf ign k) on else x)
    (kvKeys (run ign on)) (kvKeys_apart T.pn T.sn) (by
      intro k hk m f hm hf
      have hu := uN k hk
      unfold keyNew
      rw [kvHas_eq oc T.pc hu.plain, kvHas_eq oo T.po hu.plain]
      by_cases hc : vals ign (nameOf ign k) oc = [] ∧ vals ign (nameOf ign k) oo = []
      · rw [if_pos (by simp [hc.1, hc.2])]
        simp only [if_pos hc]
        exact hm.insertAll hu aN
      · rw [if_neg (by simpa using hc)]
        simp only [if_neg hc, ite_self]
        exact hm) _ _ (reach_created hign) (fun _ _ _ => rfl)
  -- 2. keys of the current one
  obtain ⟨f2, r2, c2, h2, h2'⟩ := Reach.loop (ign := ign) (keyCur r (run ign oc) (run ign on) (run ign oo))
    (fun k x => if vals ign (nameOf ign k) oo = [] then x ++ vals ign (nameOf ign k) oc
      else if vals ign (nameOf ign k) on = [] then (if useCur r 1 none (some k) none = true then x ++ vals ign (nameOf ign k) oc else x) else x)
    (kvKeys (run ign oc)) (kvKeys_apart T.pc T.sc) (by
      intro k hk m f hm hf
      have hu := uC k hk
      unfold keyCur
      simp only [kvHas_eq on T.pn hu.plain, kvHas_eq oo T.po hu.plain]
      by_cases ho : vals ign (nameOf ign k) oo = []
      · rw [if_pos (by simp only [ho]; cases (decide (vals ign (nameOf ign k) on ≠ [])) <;> rfl)]
        simp only [if_pos ho]
        exact hm.insertAll hu aC
      · rw [if_neg (by simp [ho])]
        simp only [if_neg ho]
        by_cases hn : vals ign (nameOf ign k) on = []
        · rw [if_pos (by simp [hn, ho])]
          simp only [if_pos hn]
          by_cases hq : useCur r 1 none (some k) none = true
          · simp only [if_pos hq]
            exact hm.insertAll hu aC
          · simp only [if_neg hq, ite_self]
            exact hm
        · rw [if_neg (by simp [hn])]
          simp only [if_neg hn, ite_self]
          have := hm.op (.addKey k) hu
          refine this.congr fun n => ?_
          simp [Op.change]) _ _ r1 c1
  have hsub : (updateKeys (run ign oc) (run ign on) (run ign oo)).Pairwise fun a b => ¬ Same (nameOf ign a) (nameOf ign b) :=
    (kvKeys_apart T.pc T.sc).sublist List.filter_sublist
  have uU : ∀ k ∈ updateKeys (run ign oc) (run ign on) (run ign oo), Usable ign k := fun k hk => uC k (List.mem_filter.1 hk).1
  -- 3. one value
  obtain ⟨f3, r3, c3, h3, h3'⟩ := Reach.loop (ign := ign) (single r (run ign oc) (run ign on) (run ign oo))
    (fun k x => if (vals ign (nameOf ign k) oc).length > 1 ∨ (vals ign (nameOf ign k) on).length > 1 then x
      else [single' r k ((vals ign (nameOf ign k) oc).head?.getD none) ((vals ign (nameOf ign k) on).head?.getD none) ((vals ign (nameOf ign k) oo).head?.getD none)])
    (updateKeys (run ign oc) (run ign on) (run ign oo)) hsub (by
      intro k hk m f hm hf
      have hu := uU k hk
      unfold single
      rw [(aC.ask k hu.plain).1, (aN.ask k hu.plain).1]
      by_cases hl : (vals ign (nameOf ign k) oc).length > 1 ∨ (vals ign (nameOf ign k) on).length > 1
      · simp only [if_pos hl, ite_self]
        exact hm
      · simp only [if_neg hl]
        rw [direct_zero oc T.pc hu.plain, direct_zero on T.pn hu.plain, direct_zero oo T.po hu.plain]
        have set : ∀ v : Val, Reach ign (kvSet m k v).2 (fun n => if Same (nameOf ign k) n then [v] else f n) :=
          fun v => hm.op (.set k v) hu
        unfold single'
        split
        · split
          · exact set _
          · exact set _
        · exact set _) _ _ r2 c2
  -- 4. several values
  obtain ⟨f4, r4, c4, h4, h4'⟩ := Reach.loop (ign := ign) (multi r (run ign oc) (run ign on) (run ign oo))
    (fun k x => if (vals ign (nameOf ign k) oc).length ≤ 1 ∧ (vals ign (nameOf ign k) on).length ≤ 1 then x
      else x ++ multi' r k (vals ign (nameOf ign k) oc) (vals ign (nameOf ign k) on) (vals ign (nameOf ign k) oo))
    (updateKeys (run ign oc) (run ign on) (run ign oo)) hsub (by
      intro k hk m f hm hf
      have hu := uU k hk
      unfold multi
      rw [(aC.ask k hu.plain).1, (aN.ask k hu.plain).1]
      by_cases hl : (vals ign (nameOf ign k) oc).length ≤ 1 ∧ (vals ign (nameOf ign k) on).length ≤ 1
      · simp only [if_pos hl, ite_self]
        exact hm
      · simp only [if_neg hl]
        have e : mergedVals r (run ign oc) (run ign on) (run ign oo) k =
            multi' r k (vals ign (nameOf ign k) oc) (vals ign (nameOf ign k) on) (vals ign (nameOf ign k) oo) := by
          unfold mergedVals multi' cached
          rw [direct_vals aC hu.plain, direct_vals aN hu.plain, direct_vals (run_after T.po) hu.plain]
        rw [e]
        exact hm.adds hu _) _ _ r3 c3
  refine ⟨f4, r4, ?_, ?_⟩
  · intro key hkey n hn
    have hu := uC key hkey
    have hC := vals_same oc T.pc _ _ hn
    have hN := vals_same on T.pn _ _ hn
    have hO := vals_same oo T.po _ _ hn
    -- after the first loop
    have g1 : f1 n = if vals ign n oc = [] ∧ vals ign n oo = [] then vals ign n on else [] := by
      by_cases hex : ∃ k ∈ kvKeys (run ign on), Same (nameOf ign k) n
      · obtain ⟨k, hk, hs⟩ := hex
        rw [h1 k hk n hs, vals_same oc T.pc _ _ hs, vals_same on T.pn _ _ hs, vals_same oo T.po _ _ hs]
        simp
      · rw [h1' n (fun k hk hs => hex ⟨k, hk, hs⟩)]
        have : vals ign n on = [] := by
          apply Classical.byContradiction
          intro h
          exact hex (kvKeys_listed aN (run_shown T.pn T.sn) h)
        simp [this]
    have g2 := h2 key hkey n hn
    rw [hC, hN, hO, g1] at g2
    have hupd : key ∈ updateKeys (run ign oc) (run ign on) (run ign oo) ↔ vals ign n on ≠ [] ∧ vals ign n oo ≠ [] := by
      unfold updateKeys
      rw [List.mem_filter, kvHas_eq on T.pn hu.plain, kvHas_eq oo T.po hu.plain, hN, hO]
      simp [hkey]
    have hother : key ∉ updateKeys (run ign oc) (run ign on) (run ign oo) → ∀ k ∈ updateKeys (run ign oc) (run ign on) (run ign oo), ¬ Same (nameOf ign k) n := by
      intro hnot k hk e
      apply hnot
      rw [hupd]
      have hk' := (List.mem_filter.1 hk).2
      rw [kvHas_eq on T.pn (uU k hk).plain, kvHas_eq oo T.po (uU k hk).plain, vals_same on T.pn _ _ e, vals_same oo T.po _ _ e] at hk'
      simpa using hk'
    dsimp only
    by_cases ho : vals ign n oo = []
    · have hnot : key ∉ updateKeys (run ign oc) (run ign on) (run ign oo) := fun h => (hupd.1 h).2 ho
      rw [h4' n (hother hnot), h3' n (hother hnot), g2, if_pos ho, if_pos ho]
    · rw [if_neg ho]
      have ho2 : ¬ (vals ign n oc = [] ∧ vals ign n oo = []) := fun h => ho h.2
      simp only [if_neg ho, if_neg ho2] at g2
      by_cases hn0 : vals ign n on = []
      · have hnot : key ∉ updateKeys (run ign oc) (run ign on) (run ign oo) := fun h => (hupd.1 h).1 hn0
        rw [h4' n (hother hnot), h3' n (hother hnot), g2, if_pos hn0, if_pos hn0]
        simp
      · have hin := hupd.2 ⟨hn0, ho⟩
        rw [if_neg hn0] at g2 ⊢
        rw [h4 key hin n hn, h3 key hin n hn, hC, hN, hO, g2]
        by_cases hl : (vals ign n oc).length > 1 ∨ (vals ign n on).length > 1
        · rw [if_pos hl, if_pos hl, if_neg (by omega)]
          simp
        · rw [if_neg hl, if_neg hl, if_pos (by omega)]
  · intro n hn
    have hnu : ∀ k ∈ updateKeys (run ign oc) (run ign on) (run ign oo), ¬ Same (nameOf ign k) n := fun k hk => hn k (List.mem_filter.1 hk).1
    rw [h4' n hnu, h3' n hnu, h2' n hn]
    have hC : vals ign n oc = [] := by
      apply Classical.byContradiction
      intro h
      obtain ⟨k, hk, e⟩ := kvKeys_listed aC (run_shown T.pc T.sc) h
      exact hn k hk e
    by_cases hex : ∃ k ∈ kvKeys (run ign on), Same (nameOf ign k) n
    · obtain ⟨k, hk, hs⟩ := hex
      rw [h1 k hk n hs, vals_same oc T.pc _ _ hs, vals_same on T.pn _ _ hs, vals_same oo T.po _ _ hs, hC]
      simp
    · rw [h1' n (fun k hk hs => hex ⟨k, hk, hs⟩)]
      have : vals ign n on = [] := by
        apply Classical.byContradiction
        intro h
        exact hex (kvKeys_listed aN (run_shown T.pn T.sn) h)
      simp [this]

end Verif.IniMerge
