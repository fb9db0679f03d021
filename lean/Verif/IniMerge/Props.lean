import Verif.IniMerge.Lemmas
/- C122: merging INI objects. -/
namespace Verif.IniMerge
open Verif.Ini
open Verif.Chr (toLower)

theorem text_getD (v : Val) : text v = v.getD [] := by cases v <;> rfl

theorem found_iff {l : List Val} {v : Val} (h : v ≠ none) : found l v = true ↔ Among v l := by
  obtain ⟨t, rfl⟩ := Option.ne_none_iff_exists'.1 h
  simp [found, Among, valEq, text_getD]

theorem useCur_iff (r : Rules) (bit : UInt32) (key : Option (List UInt8)) (c n : Val) : useCur r bit key c n = true ↔ Asked r bit key c n := by
  unfold useCur Asked
  cases hr : r.resolver with
  | none => simp
  | some f => simp

/-- The round over the values of one key. -/
theorem kept_of {r : Rules} {key : List UInt8} {C N O : List Val} (hC : C ≠ []) (hnull : 1 < C.length ∨ 1 < N.length → none ∉ C ∧ none ∉ N) :
    Kept r key C N O
      (let x := if C = [] ∧ O = [] then N else []
       if O = [] then x ++ C
       else if N = [] then (if useCur r 1 none (some key) none = true then C else [])
       else if C.length > 1 ∨ N.length > 1 then multi' r key C N O
       else [single' r key (C.head?.getD none) (N.head?.getD none) (O.head?.getD none)]) := by
  have h0 : ¬ (C = [] ∧ O = []) := fun h => hC h.1
  simp only [if_neg h0, List.nil_append]
  by_cases ho : O = []
  · rw [if_pos ho]; exact .own ho
  · rw [if_neg ho]
    by_cases hn : N = []
    · rw [if_pos hn]
      by_cases hq : useCur r 1 none (some key) none = true
      · rw [if_pos hq]; exact .held ho hn ((useCur_iff ..).1 hq)
      · rw [if_neg hq]; exact .gone ho hn (fun h => hq ((useCur_iff ..).2 h))
    · rw [if_neg hn]
      by_cases hl : C.length > 1 ∨ N.length > 1
      · rw [if_pos hl]
        obtain ⟨nC, nN⟩ := hnull hl
        unfold multi'
        refine .several _ _ ho hn hl List.filter_sublist ?_ ?_ List.filter_sublist ?_ ?_
        · intro v hv
          have hv0 : v ≠ none := fun e => nC (e ▸ hv)
          rw [List.mem_filter]
          simp only [hv, true_and, ← found_iff hv0, ← useCur_iff, MULTI_REMOVED_KEEP]
          cases found N v <;> cases found O v <;> cases useCur r 8 (some key) v none <;> simp
        · intro v hv
          exact List.count_filter (List.mem_filter.1 hv).2
        · intro v hv
          have hv0 : v ≠ none := fun e => nN (e ▸ hv)
          rw [List.mem_filter]
          simp only [hv, true_and, ← found_iff hv0]
          cases found C v <;> cases found O v <;> simp
        · intro v hv
          exact List.count_filter (List.mem_filter.1 hv).2
      · rw [if_neg hl]
        match C, N, O, hC, hn, ho, hl with
        | [c], [n], o :: os, _, _, _, _ =>
          simp only [List.head?_cons, Option.getD_some]
          unfold single'
          by_cases h1 : text c = text o
          · by_cases h2 : text c = text n
            · rw [if_neg (by simp [valEq, ← text_getD, h2])]
              exact .mine c n o os rfl rfl rfl (.inr h2)
            · rw [if_pos (by simp [valEq, ← text_getD, h1]; exact fun e => h2 (h1.trans e))]
              by_cases h3 : useCur r 2 (some key) c n = true
              · rw [if_pos h3]; exact .stays c n o os rfl rfl rfl h1 h2 ((useCur_iff ..).1 h3)
              · rw [if_neg h3]; exact .theirs c n o os rfl rfl rfl h1 h2 (fun h => h3 ((useCur_iff ..).2 h))
          · rw [if_neg (by simp [valEq, ← text_getD, h1])]
            exact .mine c n o os rfl rfl rfl (.inl h1)
        | _ :: _ :: _, _, _, _, _, _, hl => simp at hl
        | [_], _ :: _ :: _, _, _, _, _, hl => simp at hl

/-- What the caller has to bring: the keys of the current object have values, and a key with several values has no value that is the
null pointer. -/
structure Ready (ign : Bool) (oc on : List Op) : Prop where
  filled : ∀ k ∈ kvKeys (run ign oc), kvVals (run ign oc) k ≠ []
  told : ∀ k ∈ kvKeys (run ign oc), 1 < (kvVals (run ign oc) k).length ∨ 1 < (kvVals (run ign on) k).length →
    none ∉ kvVals (run ign oc) k ∧ none ∉ kvVals (run ign on) k

theorem kvVals_run {ign : Bool} {ops : List Op} (hp : ∀ o ∈ ops, Plain ign o.key) {k : List UInt8} (hk : Plain ign k) : kvVals (run ign ops) k = vals ign (nameOf ign k) ops :=
  ((run_after hp).ask k hk).2.2.2

theorem Reach.vals {ign : Bool} {m : Ini} {f : List UInt8 → List Val} (h : Reach ign m f) {k : List UInt8} (hk : Plain ign k) : kvVals m k = f (nameOf ign k) := by
  obtain ⟨ops, ha, _, hv⟩ := h
  rw [(ha.ask k hk).2.2.2, hv]

/-- `M_ini_merge`, of three objects as the calls that set, add and remove values make them, for any flags and any callback: a key of
the current object has in the merged one the values that the table says, one that only the new object has comes in, one that the
current object does not have any more stays away, and every key that has values is among the keys of the merged object.  Missing:
keys without values and null pointers among several values, which fail (`valueless_fails`, `null_fails`); objects that do not agree
on ignoring blanks; keys as in `store_partial` and `keys_partial`. -/
theorem merge_partial {ign : Bool} {oc on oo : List Op} (T : Three ign oc on oo) (R : Ready ign oc on) (r : Rules) :
    (∀ key ∈ kvKeys (run ign oc), Kept r key (kvVals (run ign oc) key) (kvVals (run ign on) key) (kvVals (run ign oo) key)
      (kvVals (merge r (run ign oc) (run ign on) (run ign oo)) key)) ∧
    (∀ k, Plain ign k → kvHas (run ign oc) k = false → kvHas (run ign oo) k = false →
      kvVals (merge r (run ign oc) (run ign on) (run ign oo)) k = kvVals (run ign on) k) ∧
    (∀ k, Plain ign k → kvHas (run ign oc) k = false → kvHas (run ign oo) k = true →
      kvVals (merge r (run ign oc) (run ign on) (run ign oo)) k = []) ∧
    (∀ k, Plain ign k → kvVals (merge r (run ign oc) (run ign on) (run ign oo)) k ≠ [] →
      ∃ k' ∈ kvKeys (merge r (run ign oc) (run ign on) (run ign oo)), Same (nameOf ign k') (nameOf ign k)) := by
  obtain ⟨f, hr, h1, h2⟩ := merged T r
  have away : ∀ k, Plain ign k → kvHas (run ign oc) k = false → ∀ key ∈ kvKeys (run ign oc), ¬ Same (nameOf ign key) (nameOf ign k) := by
    intro k hk hc key hkey e
    have := R.filled key hkey
    rw [kvVals_run T.pc (kvKeys_usable T.pc T.sc key hkey).plain, vals_same oc T.pc _ _ e] at this
    rw [kvHas_eq oc T.pc hk] at hc
    exact this (by simpa using hc)
  refine ⟨?_, ?_, ?_, ?_⟩
  · intro key hkey
    have hu := kvKeys_usable T.pc T.sc key hkey
    have hf := R.filled key hkey
    have ht := R.told key hkey
    rw [hr.vals hu.plain, h1 key hkey _ (Same.refl _)]
    rw [kvVals_run T.pc hu.plain] at hf ht ⊢
    rw [kvVals_run T.pn hu.plain] at ht ⊢
    rw [kvVals_run T.po hu.plain]
    exact kept_of hf ht
  · intro k hk hc ho
    rw [kvHas_eq oo T.po hk] at ho
    have ho : Ini.vals ign (nameOf ign k) oo = [] := by simpa using ho
    rw [hr.vals hk, h2 _ (away k hk hc), kvVals_run T.pn hk, if_pos ho]
  · intro k hk hc ho
    rw [kvHas_eq oo T.po hk] at ho
    have ho : Ini.vals ign (nameOf ign k) oo ≠ [] := by simpa using ho
    rw [hr.vals hk, h2 _ (away k hk hc), if_neg ho]
  · intro k hk h
    rw [hr.vals hk] at h
    obtain ⟨ops, ha, hs, hv⟩ := hr
    rw [← hv] at h
    exact kvKeys_listed ha hs h

/-- A name that the current object has values for is that of one of its keys, and all the spellings have the same values. -/
theorem listed {ign : Bool} {oc on oo : List Op} (T : Three ign oc on oo) (r : Rules) {k : List UInt8} (hk : Plain ign k) (hc : kvHas (run ign oc) k = true) :
    ∃ key ∈ kvKeys (run ign oc), Plain ign key ∧ kvVals (run ign oc) key = kvVals (run ign oc) k ∧ kvVals (run ign on) key = kvVals (run ign on) k ∧ kvVals (run ign oo) key = kvVals (run ign oo) k ∧
      kvVals (merge r (run ign oc) (run ign on) (run ign oo)) key = kvVals (merge r (run ign oc) (run ign on) (run ign oo)) k := by
  rw [kvHas_eq oc T.pc hk] at hc
  have hc : Ini.vals ign (nameOf ign k) oc ≠ [] := by simpa using hc
  obtain ⟨key, hkey, e⟩ := kvKeys_listed (run_after T.pc) (run_shown T.pc T.sc) hc
  have hp := (kvKeys_usable T.pc T.sc key hkey).plain
  obtain ⟨f, ⟨ops, ha, hs, hv⟩, _⟩ := merged T r
  refine ⟨key, hkey, hp, ?_, ?_, ?_, ?_⟩
  · rw [kvVals_run T.pc hp, kvVals_run T.pc hk, vals_same oc T.pc _ _ e]
  · rw [kvVals_run T.pn hp, kvVals_run T.pn hk, vals_same on T.pn _ _ e]
  · rw [kvVals_run T.po hp, kvVals_run T.po hk, vals_same oo T.po _ _ e]
  · rw [(ha.ask key hp).2.2.2, (ha.ask k hk).2.2.2]
    exact ha.kvs.ok _ _ e

theorem kvVals_none {ign : Bool} {ops : List Op} (hp : ∀ o ∈ ops, Plain ign o.key) {k : List UInt8} (hk : Plain ign k) : kvHas (run ign ops) k = false ↔ kvVals (run ign ops) k = [] := by
  rw [kvHas_eq ops hp hk, kvVals_run hp hk]; simp

/-- Nothing new: if the new object has the values of the original one, the merged object has those of the current one, in their
order, whatever the flags and the callback say. -/
theorem merge_nothing_new_partial {ign : Bool} {oc on oo : List Op} (T : Three ign oc on oo) (R : Ready ign oc on) (r : Rules)
    (h : ∀ k, Plain ign k → kvVals (run ign on) k = kvVals (run ign oo) k) (k : List UInt8) (hk : Plain ign k) :
    kvVals (merge r (run ign oc) (run ign on) (run ign oo)) k = kvVals (run ign oc) k := by
  have M := merge_partial T R r
  cases hc : kvHas (run ign oc) k with
  | false =>
    rw [(kvVals_none T.pc hk).1 hc]
    cases ho : kvHas (run ign oo) k with
    | false => rw [M.2.1 k hk hc ho, h k hk]; exact (kvVals_none T.po hk).1 ho
    | true => exact M.2.2.1 k hk hc ho
  | true =>
    obtain ⟨key, hkey, hp, e1, e2, e3, e4⟩ := listed T r hk hc
    have K := M.1 key hkey
    have hno := h key hp
    rw [e4, e1, e2, e3] at K
    rw [e2, e3] at hno
    rw [hno] at K
    generalize kvVals (merge r (run ign oc) (run ign on) (run ign oo)) k = V at K ⊢
    generalize kvVals (run ign oc) k = C at K ⊢
    generalize kvVals (run ign oo) k = O at K
    cases K with
    | own => rfl
    | gone ho hn => exact absurd hn ho
    | held => rfl
    | mine c n o os h1 => exact h1.symm
    | theirs c n o os h1 h2 h3 h4 h5 =>
      rw [h2] at h3; cases h3
      exact absurd h4 h5
    | stays c n o os h1 => exact h1.symm
    | several K A ho hn hl s1 m1 c1 s2 m2 c2 =>
      have hA : A = [] := by
        rw [List.eq_nil_iff_forall_not_mem]
        intro v hv
        exact ((m2 v (s2.subset hv)).1 hv).2 ⟨v, s2.subset hv, rfl⟩
      have hin : ∀ v ∈ C, v ∈ K := fun v hv => (m1 v hv).2 (Classical.byContradiction fun hx => by
        have h1 : ¬ Among v O := fun e => hx (.inl e)
        exact hx (.inr (.inl h1)))
      have hperm : K.Perm C := by
        rw [List.perm_iff_count]
        intro v
        by_cases hv : v ∈ K
        · exact c1 v hv
        · rw [List.count_eq_zero_of_not_mem hv, List.count_eq_zero_of_not_mem (fun h => hv (hin v h))]
      rw [hA, List.append_nil]
      exact s1.eq_of_length hperm.length_eq

/-- Nothing changed by the user: if the current object has the values of the original one, and there is no flag and no callback, the
merged object has the values of the new one, apart from their order and number. -/
theorem merge_untouched_partial {ign : Bool} {oc on oo : List Op} (T : Three ign oc on oo) (R : Ready ign oc on) (r : Rules) (h0 : r.flags = 0) (h1 : r.resolver = none)
    (h : ∀ k, Plain ign k → kvVals (run ign oc) k = kvVals (run ign oo) k) (k : List UInt8) (hk : Plain ign k) (t : List UInt8) :
    (∃ v ∈ kvVals (merge r (run ign oc) (run ign on) (run ign oo)) k, text v = t) ↔ ∃ v ∈ kvVals (run ign on) k, text v = t := by
  have M := merge_partial T R r
  have na : ∀ fl kk c n, ¬ Asked r fl kk c n := by
    intro fl kk c n a
    rcases a with ⟨_, f, hf, _⟩ | a
    · rw [h1] at hf; cases hf
    · rw [h0] at a; simp at a
  cases hc : kvHas (run ign oc) k with
  | false =>
    have ho : kvHas (run ign oo) k = false := by
      rw [kvVals_none T.po hk, ← h k hk, ← kvVals_none T.pc hk]; exact hc
    rw [M.2.1 k hk hc ho]
  | true =>
    obtain ⟨key, hkey, hp, e1, e2, e3, e4⟩ := listed T r hk hc
    have hne : kvVals (run ign oc) k ≠ [] := by rw [← e1]; exact R.filled key hkey
    have K := M.1 key hkey
    rw [e4, e1, e2, e3, ← h k hk] at K
    generalize kvVals (merge r (run ign oc) (run ign on) (run ign oo)) k = V at K ⊢
    generalize kvVals (run ign oc) k = C at K hne
    generalize kvVals (run ign on) k = N at K ⊢
    cases K with
    | own ho => exact absurd ho hne
    | gone ho hn => rw [hn]
    | held ho hn ha => exact absurd ha (na _ _ _ _)
    | mine c n o os g1 g2 g3 g4 =>
      rw [g1] at g3; cases g3
      have g5 : text c = text n := g4.elim (fun e => absurd rfl e) id
      rw [g2]; simp [g5]
    | theirs c n o os g1 g2 => rw [g2]
    | stays c n o os g1 g2 g3 g4 g5 ha => exact absurd ha (na _ _ _ _)
    | several K A ho hn hl s1 m1 c1 s2 m2 c2 =>
      constructor
      · rintro ⟨v, hv, rfl⟩
        rcases List.mem_append.1 hv with hv | hv
        · rcases (m1 v (s1.subset hv)).1 hv with ⟨w, hw, e⟩ | e | e
          · exact ⟨w, hw, e⟩
          · exact absurd ⟨v, s1.subset hv, rfl⟩ e
          · exact absurd e (na _ _ _ _)
        · exact ⟨v, s2.subset hv, rfl⟩
      · rintro ⟨v, hv, rfl⟩
        by_cases ha : Among v C
        · obtain ⟨w, hw, e⟩ := ha
          exact ⟨w, List.mem_append_left _ ((m1 w hw).2 (.inl ⟨v, hv, e.symm⟩)), e⟩
        · exact ⟨v, List.mem_append_right _ ((m2 v hv).2 ⟨ha, ha⟩), rfl⟩

/-! ## Cases -/

/-- Original: a=1, b=1, c=1, d=1, m=1, m=2. -/
def orig0 : List Op := [.set [97] (some [49]), .set [98] (some [49]), .set [99] (some [49]), .set [100] (some [49]), .insert [109] (some [49]), .insert [109] (some [50])]
/-- Current: a is changed, b and d as before, c removed, e added, m=3 added. -/
def cur0 : List Op := [.set [97] (some [50]), .set [98] (some [49]), .set [100] (some [49]), .set [101] (some [53]), .insert [109] (some [49]), .insert [109] (some [50]), .insert [109] (some [51])]
/-- New: a and b have other values, d is not there any more, f is added, m=2 is replaced by m=4. -/
def new0 : List Op := [.set [97] (some [51]), .set [98] (some [52]), .set [99] (some [49]), .set [102] (some [54]), .insert [109] (some [49]), .insert [109] (some [52])]

instance (ign : Bool) (k : List UInt8) : Decidable (Sectioned ign k) := inferInstanceAs (Decidable (_ ≠ _))

theorem three0 : Three false cur0 new0 orig0 := by
  refine ⟨?_, ?_, ?_, ?_, ?_, ?_⟩
  · intro o _ h; cases h
  · decide +kernel
  · intro o _ h; cases h
  · decide +kernel
  · intro o _ h; cases h
  · decide +kernel

theorem ready0 : Ready false cur0 new0 := ⟨by decide +kernel, by decide +kernel⟩

/-- The hypotheses can be met, and this is what comes out: a=2, b=4, e=5, f=6 and m=1, 3, 4. -/
example : Three false cur0 new0 orig0 ∧ Ready false cur0 new0 ∧
    [[97], [98], [99], [100], [101], [102], [109]].map (kvVals (merge ⟨0, none⟩ (run false cur0) (run false new0) (run false orig0))) =
      [[some [50]], [some [52]], [], [], [some [53]], [some [54]], [some [49], some [51], some [52]]] :=
  ⟨three0, ready0, by decide +kernel⟩

/-- With all flags: b=1 and d=1 stay, and so does m=2. -/
example : [[98], [100], [109]].map (kvVals (merge ⟨11, none⟩ (run false cur0) (run false new0) (run false orig0))) =
      [[some [49]], [some [49]], [some [49], some [50], some [51], some [52]]] := by decide +kernel

/-- With a callback that holds the keys that the new object does not have any more. -/
example : [[98], [100], [109]].map (kvVals (merge ⟨0, some fun k _ _ => decide (k = none)⟩ (run false cur0) (run false new0) (run false orig0))) =
      [[some [52]], [some [49]], [some [49], some [51], some [52]]] := by decide +kernel

/-- The hypotheses of the two consequences can be met. -/
example : Three false cur0 orig0 orig0 ∧ Ready false cur0 orig0 ∧ Three false orig0 new0 orig0 ∧ Ready false orig0 new0 :=
  ⟨⟨three0.pc, three0.sc, three0.po, three0.so, three0.po, three0.so⟩, ⟨by decide +kernel, by decide +kernel⟩,
    ⟨three0.po, three0.so, three0.pn, three0.sn, three0.po, three0.so⟩, ⟨by decide +kernel, by decide +kernel⟩⟩

/-- Three objects that are the same, with a key that has two values, one of them without a text: the merged object has three values,
because the null pointer is not found among the values (`base/list/m_list.c:548`). -/
theorem null_fails : let o := run false [.insert [107] none, .insert [107] (some [97])]
    kvVals o [107] = [none, some [97]] ∧ kvVals (merge ⟨0, none⟩ o o o) [107] = [none, some [97], none] := by decide +kernel

/-- The values of a key are removed from the current object, which does not have the key then: the merged object has it, without a
text (`formats/ini/m_ini_merger.c:113-119` goes by the list of keys). -/
theorem valueless_fails : let o := run false [.set [107] (some [97])]
    let c := run false [.set [107] (some [97]), .removeVals [107]]
    kvHas c [107] = false ∧ kvVals (merge ⟨0, none⟩ c o o) [107] = [none] ∧ kvHas (merge ⟨0, none⟩ c o o) [107] = true := by decide +kernel

end Verif.IniMerge
