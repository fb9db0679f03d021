import Verif.Ini.Names
/- Histories of calls. -/
namespace Verif.Ini
open Verif.Chr (toLower isUpper)

/-- The object after a history. -/
structure After (ign : Bool) (ops : List Op) (ini : Ini) : Prop where
  flag : ini.ign = ign
  kvs : Holds ini.kvs (names ign ops) (fun n => vals ign n ops)

/-- The printed names after a history. -/
def Shown (ign : Bool) (ops : List Op) (ini : Ini) : Prop := Printed ign ini.lookup (names ign ops) (fun _ => False)

theorem vals_snoc (ign : Bool) (n : List UInt8) (ops : List Op) (o : Op) :
    vals ign n (ops ++ [o]) = if Valid o.key ∧ Same (nameOf ign o.key) n then o.change (vals ign n ops) else vals ign n ops := by
  simp [vals, List.foldl_append]

theorem names_snoc (ign : Bool) (ops : List Op) (o : Op) : names ign (ops ++ [o]) = if Valid o.key then o.names ign (names ign ops) else names ign ops := by
  simp [names, List.foldl_append]

theorem run_snoc (ign : Bool) (ops : List Op) (o : Op) : run ign (ops ++ [o]) = (exec (run ign ops) o).2 := by
  simp [run, List.foldl_append]

theorem exec_bad {ini : Ini} {o : Op} (h : ¬ Valid o.key) : exec ini o = (false, ini) := by
  have hb := (badKey_iff o.key).2 h
  cases o <;> simp only [Op.key] at hb <;> simp [exec, kvSet, kvInsert, kvAddKey, kvPut, kvRemove, kvRemoveVals, kvRemoveAt, hb]

/-- What a call returns. -/
def answer (ign : Bool) (ops : List Op) : Op → Bool
  | .remove k => decide (Valid k ∧ ∃ n ∈ names ign ops, Same n (nameOf ign k))
  | .removeAt k i => decide (Valid k ∧ i < (vals ign (nameOf ign k) ops).length)
  | o => decide (Valid o.key)

/-- The common part of the calls that put something in. -/
theorem kvPut_after {ign : Bool} {ini : Ini} {key : List UInt8} (hv : Valid key) (f : Kvs → List UInt8 → Bool × Kvs) (hi : ini.ign = ign) (hp : Plain ign key)
    (hf : (f ini.kvs (nameOf ign key)).1 = true) :
    (kvPut ini key f).1 = true ∧ (kvPut ini key f).2.kvs = (f ini.kvs (nameOf ign key)).2 ∧ (kvPut ini key f).2.ign = ign ∧
      (kvPut ini key f).2.lookup = (if (look ini.lookup (nameOf ign key)).isNone then addNames ini key else ini.lookup) := by
  have hb : badKey key = false := by rw [Bool.eq_false_iff]; exact fun e => (badKey_iff key).1 e hv
  unfold kvPut
  rw [hb, hi, intKey_plain hp]
  simp only [Bool.false_eq_true, if_false, hf, true_and]
  by_cases hl : (look ini.lookup (nameOf ign key)).isNone = true
  · simp only [hl, if_true]
    exact ⟨trivial, trivial, trivial, by simp [addNames, hi]⟩
  · simp only [hl]
    exact ⟨by simp, by simp, by simp [hi], by simp⟩

theorem exec_after {ign : Bool} {ops : List Op} {ini : Ini} (h : After ign ops ini) (o : Op) (hp : Plain ign o.key) :
    (exec ini o).1 = answer ign ops o ∧ After ign (ops ++ [o]) (exec ini o).2 := by
  by_cases hv : Valid o.key
  · have hne := (nameOf_valid hp hv).1
    have hb : badKey o.key = false := by rw [Bool.eq_false_iff]; exact fun e => (badKey_iff o.key).1 e hv
    have hn : names ign (ops ++ [o]) = o.names ign (names ign ops) := by rw [names_snoc, if_pos hv]
    have hw : ∀ n, vals ign n (ops ++ [o]) = if Same (nameOf ign o.key) n then o.change (vals ign n ops) else vals ign n ops := by
      intro n; rw [vals_snoc]; simp only [hv, true_and]
    cases o with
    | set k v =>
      dsimp only [Op.key, Op.names, Op.change] at hp hv hne hb hn hw
      obtain ⟨h1, h2⟩ := h.kvs.set hne v
      obtain ⟨p1, p2, p3, p4⟩ := kvPut_after hv (fun d k => d.set k v) h.flag hp h1
      refine ⟨p1.trans (by simp [answer, Op.key, hv]), p3, ?_⟩
      show Holds (kvPut ini k _).2.kvs _ _
      rw [p2, hn]
      exact h2.congr fun n => (hw n).symm
    | insert k v =>
      dsimp only [Op.key, Op.names, Op.change] at hp hv hne hb hn hw
      obtain ⟨h1, h2⟩ := h.kvs.insert hne v
      obtain ⟨p1, p2, p3, p4⟩ := kvPut_after hv (fun d k => d.insert k v) h.flag hp h1
      refine ⟨p1.trans (by simp [answer, Op.key, hv]), p3, ?_⟩
      show Holds (kvPut ini k _).2.kvs _ _
      rw [p2, hn]
      exact h2.congr fun n => (hw n).symm
    | addKey k =>
      dsimp only [Op.key, Op.names, Op.change] at hp hv hne hb hn hw
      have h2 := h.kvs.ensure hne
      obtain ⟨p1, p2, p3, p4⟩ := kvPut_after hv (fun d k => (true, d.ensure k)) h.flag hp rfl
      refine ⟨p1.trans (by simp [answer, Op.key, hv]), p3, ?_⟩
      show Holds (kvPut ini k _).2.kvs _ _
      rw [p2, hn]
      refine h2.congr fun n => ?_
      have e := hw n
      by_cases hs : Same (nameOf ign k) n
      · exact (e.trans (if_pos hs)).symm
      · exact (e.trans (if_neg hs)).symm
    | remove k =>
      dsimp only [Op.key, Op.names, Op.change] at hp hv hne hb hn hw
      obtain ⟨h1, h2⟩ := h.kvs.remove (nameOf ign k)
      have e : exec ini (.remove k) = kvRemove ini k := rfl
      have hh : ∀ (r : Bool × Kvs), r = ini.kvs.remove (intKey ini.ign k) → (exec ini (.remove k)).1 = r.1 ∧ (exec ini (.remove k)).2.kvs = r.2 ∧ (exec ini (.remove k)).2.ign = ini.ign := by
        intro r hr
        rw [e, kvRemove, hb, ← hr]
        cases hr1 : r.1 <;> simp [hr1]
      obtain ⟨q1, q2, q3⟩ := hh _ rfl
      rw [h.flag, intKey_plain hp] at q1 q2
      refine ⟨q1.trans (h1.trans (by simp [answer, hv])), q3.trans h.flag, ?_⟩
      rw [q2, hn]
      exact h2.congr fun n => (hw n).symm
    | removeVals k =>
      dsimp only [Op.key, Op.names, Op.change] at hp hv hne hb hn hw
      have e : exec ini (.removeVals k) = (true, { ini with kvs := ini.kvs.removeAll (intKey ini.ign k) }) := by simp [exec, kvRemoveVals, hb]
      rw [e]
      refine ⟨by simp [answer, Op.key, hv], h.flag, ?_⟩
      show Holds (ini.kvs.removeAll _) _ _
      rw [h.flag, intKey_plain hp, hn]
      exact (h.kvs.removeAll (nameOf ign k)).congr fun n => (hw n).symm
    | removeAt k i =>
      dsimp only [Op.key, Op.names, Op.change] at hp hv hne hb hn hw
      obtain ⟨h1, h2⟩ := h.kvs.removeAt (nameOf ign k) i
      have e : exec ini (.removeAt k i) = ((ini.kvs.removeAt (intKey ini.ign k) i).1, { ini with kvs := (ini.kvs.removeAt (intKey ini.ign k) i).2 }) := by simp [exec, kvRemoveAt, hb]
      rw [e, h.flag, intKey_plain hp]
      refine ⟨h1.trans (by simp [answer, hv]), rfl, ?_⟩
      show Holds (ini.kvs.removeAt _ _).2 _ _
      rw [hn]
      exact h2.congr fun n => (hw n).symm
  · rw [exec_bad hv]
    refine ⟨?_, h.flag, ?_⟩
    · cases o <;> simp only [Op.key] at hv <;> simp [answer, Op.key, hv]
    · rw [names_snoc, if_neg hv]
      refine h.kvs.congr fun n => ?_
      rw [vals_snoc, if_neg (fun e => hv e.1)]

theorem snocRec {P : List Op → Prop} (h0 : P []) (h1 : ∀ l a, P l → P (l ++ [a])) (l : List Op) : P l := by
  rw [← List.reverse_reverse l]
  induction l.reverse with
  | nil => exact h0
  | cons a l ih => rw [List.reverse_cons]; exact h1 _ _ ih

theorem after_create (ign : Bool) : After ign [] (create ign) := ⟨rfl, holds_create⟩

theorem run_after {ign : Bool} {ops : List Op} (hp : ∀ o ∈ ops, Plain ign o.key) : After ign ops (run ign ops) := by
  induction ops using snocRec with
  | h0 => exact after_create ign
  | h1 ops o ih =>
    rw [run_snoc]
    exact (exec_after (ih fun o h => hp o (by simp [h])) o (hp o (by simp))).2

/-- What the questions about a key answer. -/
theorem After.ask {ign : Bool} {ops : List Op} {ini : Ini} (h : After ign ops ini) (k : List UInt8) (hk : Plain ign k) :
    kvLen ini k = (vals ign (nameOf ign k) ops).length ∧ (∀ i, kvGet ini k i = (vals ign (nameOf ign k) ops)[i]?) ∧
      (kvHas ini k = true ↔ vals ign (nameOf ign k) ops ≠ []) ∧ kvVals ini k = vals ign (nameOf ign k) ops := by
  have e : intKey ini.ign k = nameOf ign k := by rw [h.flag]; exact intKey_plain hk
  have hl : kvLen ini k = (vals ign (nameOf ign k) ops).length := by
    unfold kvLen Kvs.len
    rw [e, h.kvs.getD]
  have hg : ∀ i, kvGet ini k i = (vals ign (nameOf ign k) ops)[i]? := by
    intro i
    unfold kvGet Kvs.get
    rw [e, h.kvs.getD]
  refine ⟨hl, hg, ?_, ?_⟩
  · have e2 : kvHas ini k = (kvGet ini k 0).isSome := by
      unfold kvHas kvGet
      rw [h.flag, intKey_idem hk]
    rw [e2, hg]
    cases vals ign (nameOf ign k) ops <;> simp
  · unfold kvVals
    rw [hl]
    apply List.ext_getElem
    · simp
    · intro i h1 h2
      simp [hg, h2]

/-! ## The printed names -/

/-- A key of no section, or of one with a name. -/
def Sectioned (ign : Bool) (k : List UInt8) : Prop := (nameOf ign k).head? ≠ some 47

theorem Printed.put {ign : Bool} {ini : Ini} {ns : List (List UInt8)} (h : Printed ign ini.lookup ns (fun _ => False)) {key : List UInt8} (hv : Valid key) (hi : ini.ign = ign) (hp : Plain ign key)
    (hs : Sectioned ign key) : Printed ign (if (look ini.lookup (nameOf ign key)).isNone then addNames ini key else ini.lookup) (addName ns (nameOf ign key)) (fun _ => False) := by
  have hvn := nameOf_valid hp hv
  have hne : key ≠ [] := hv.1
  by_cases hl : (look ini.lookup (nameOf ign key)).isNone = true
  · rw [if_pos hl]
    unfold addNames
    rw [hi, intKey_plain hp]
    rcases split_cases key with h47 | ⟨s, r, e1, e2⟩
    · rw [splitKey_plain h47 hne]
      refine h.addKey (ex := fun _ => False) hvn (fun _ _ _ h => h) (fun _ => Same.refl _) ?_
      intro s r e _
      exact absurd (nameOf_mem (by rw [e]; simp : 47 ∈ nameOf ign key)) h47
    · have hr : r ≠ [] := by
        rintro rfl; rw [e1] at hv; exact hv.2 (by simp)
      have hs0 : s ≠ [] := by
        rintro rfl; apply hs; rw [e1, nameOf_slash]; cases ign <;> simp [nameOf]
      have hsn : 47 ∉ nameOf ign s := fun e => e2 (nameOf_mem e)
      have hk : nameOf ign key = nameOf ign s ++ 47 :: nameOf ign r := by rw [e1, nameOf_slash]
      rw [e1, splitKey_slash e2, if_neg hr, ← e1]
      have hf : fullKey (some s) [] = s ++ [47] := by simp [fullKey]
      have hpl : intKey ign (s ++ [47]) = nameOf ign s ++ [47] := by
        have := nameOf_slash ign s []
        rw [intKey_plain, this]
        · cases ign <;> simp [nameOf]
        · intro e
          refine ⟨fun a c d b e' => (hp e).1 a c d (b ++ r) ?_, fun hv' => absurd (show (s ++ [(47 : UInt8)]).getLast? = some 47 by simp) hv'.2⟩
          rw [e1, show s ++ 47 :: r = (s ++ [47]) ++ r by simp, e']; simp
      have hadd : Printed ign (ins ini.lookup (nameOf ign key) r) (addName ns (nameOf ign key)) (fun x => Same (nameOf ign s ++ [47]) x) := by
        refine h.addKey hvn (fun _ _ e h => h.trans e) ?_ ?_
        · intro e; exact absurd (by rw [hk]; simp) e
        · intro a b e e'
          rw [hk] at e
          have s1 := splitKey_slash (r := nameOf ign r) hsn
          rw [e, splitKey_slash e'] at s1
          have s2 : a = nameOf ign s := by simpa using congrArg Prod.fst s1
          subst s2
          have s3 := List.append_cancel_left e
          simp only [List.cons.injEq, true_and] at s3
          rw [s3]
          exact ⟨Same.refl _, .inr (Same.refl _)⟩
      dsimp only
      rw [hf]
      by_cases hc : s ≠ [] ∧ (look (ins ini.lookup (nameOf ign key) r) (s ++ [47])).isNone = true
      · rw [if_pos hc, hpl]
        exact hadd.addSec e2 rfl (fun _ h => h)
      · rw [if_neg hc]
        -- the section is there under its full name; then it has no blanks
        have hsome : (look (ins ini.lookup (nameOf ign key) r) (s ++ [47])).isSome = true := by
          rw [← Option.not_isNone, Bool.not_eq_true']
          rw [Bool.eq_false_iff]; exact fun e => hc ⟨hs0, e⟩
        obtain ⟨v, hv'⟩ := Option.isSome_iff_exists.1 hsome
        obtain ⟨q, hq, q1, q2⟩ := look_mem hv'
        obtain ⟨q3, _⟩ := hadd.sec q hq ((same_last q1).2 (by simp))
        refine ⟨hadd.keys, hadd.ne, hadd.key, ?_, hadd.sec⟩
        intro p hp' a b f1 f2 f3
        obtain ⟨x, y⟩ := hadd.sub p hp' a b f1 f2 f3
        refine ⟨x, .inl (y.elim id fun y => ?_)⟩
        rw [← look_congr y]
        have : Same (nameOf ign s ++ [47]) (s ++ [47]) := by
          have z : Same (nameOf ign v ++ [47]) (s ++ [47]) := by rw [← q2]; exact q3.trans q1
          -- blanks of s would be among the name of v
          cases hign : ign with
          | false => exact Same.refl _
          | true =>
            subst hign
            have zz : (nameOf true v).map toLower = s.map toLower := by
              have z : (nameOf true v ++ [47]).map toLower = (s ++ [47]).map toLower := z
              have := congrArg List.dropLast z
              simpa using this
            have : nameOf true s = s := by
              simp only [nameOf, if_true, List.filter_eq_self, decide_eq_true_eq]
              intro c hc' hbl
              have : toLower c ∈ (nameOf true v).map toLower := by rw [zz]; exact List.mem_map_of_mem hc'
              obtain ⟨c', hc2, e'⟩ := List.mem_map.1 this
              have hnb : ¬ Blank c' := by
                have := (List.mem_filter.1 hc2).2
                simpa using this
              apply hnb
              have key : ∀ c c' : UInt8, toLower c' = toLower c → Blank c → Blank c' := by
                intro c c' e hb
                have hc : toLower c = c := by rcases hb with h | h | h | h <;> subst h <;> rfl
                rw [hc] at e
                unfold toLower isUpper at e
                simp only [Bool.and_eq_true, decide_eq_true_eq, UInt8.le_iff_toNat_le, UInt8.reduceToNat] at e
                split at e
                · exfalso
                  have e3 := congrArg UInt8.toNat e
                  rw [UInt8.toNat_add] at e3
                  simp only [UInt8.reduceToNat] at e3
                  rcases hb with h | h | h | h <;> subst h <;> simp only [UInt8.reduceToNat] at e3 <;> omega
                · rw [e]; exact hb
              exact key c c' e' hbl
            rw [this]; exact Same.refl _
        rw [look_congr this]
        exact hsome
  · rw [if_neg hl]
    have : (look ini.lookup (nameOf ign key)).isSome = true := by
      rw [← Option.not_isNone, Bool.not_eq_true', Bool.eq_false_iff]; exact hl
    obtain ⟨n, hn, hsn⟩ := look_isSome.1 this
    have : addName ns (nameOf ign key) = ns := by
      rw [addName, if_pos]
      refine ⟨n, ?_, hsn⟩
      rw [← h.keys, List.mem_filter]
      exact ⟨hn, by simpa using fun e => hvn.2 ((same_last hsn).1 e)⟩
    rw [this]; exact h

theorem exec_shown {ign : Bool} {ops : List Op} {ini : Ini} (ha : After ign ops ini) (h : Shown ign ops ini) (o : Op) (hp : Plain ign o.key) (hs : Sectioned ign o.key) : Shown ign (ops ++ [o]) (exec ini o).2 := by
  unfold Shown
  by_cases hv : Valid o.key
  · have hne := (nameOf_valid hp hv).1
    have hb : badKey o.key = false := by rw [Bool.eq_false_iff]; exact fun e => (badKey_iff o.key).1 e hv
    rw [names_snoc, if_pos hv]
    cases o with
    | set k v =>
      dsimp only [Op.key, Op.names] at hp hv hne hb hs ⊢
      obtain ⟨_, _, _, p4⟩ := kvPut_after hv (fun d k => d.set k v) ha.flag hp (ha.kvs.set hne v).1
      show Printed ign (kvPut ini k _).2.lookup _ _
      rw [p4]; exact h.put hv ha.flag hp hs
    | insert k v =>
      dsimp only [Op.key, Op.names] at hp hv hne hb hs ⊢
      obtain ⟨_, _, _, p4⟩ := kvPut_after hv (fun d k => d.insert k v) ha.flag hp (ha.kvs.insert hne v).1
      show Printed ign (kvPut ini k _).2.lookup _ _
      rw [p4]; exact h.put hv ha.flag hp hs
    | addKey k =>
      dsimp only [Op.key, Op.names] at hp hv hne hb hs ⊢
      obtain ⟨_, _, _, p4⟩ := kvPut_after hv (fun d k => (true, d.ensure k)) ha.flag hp rfl
      show Printed ign (kvPut ini k _).2.lookup _ _
      rw [p4]; exact h.put hv ha.flag hp hs
    | remove k =>
      dsimp only [Op.key, Op.names] at hp hv hne hb hs ⊢
      have h1 := (ha.kvs.remove (nameOf ign k)).1
      by_cases hh : ∃ n ∈ names ign ops, Same n (nameOf ign k)
      · have e : (exec ini (.remove k)).2.lookup = del ini.lookup (nameOf ign k) := by
          simp [exec, kvRemove, hb, ha.flag, intKey_plain (k := k) hp, h1, hh]
        rw [e]
        exact h.del (nameOf_valid hp hv).2
      · have e : (exec ini (.remove k)).2.lookup = ini.lookup := by
          simp [exec, kvRemove, hb, ha.flag, intKey_plain (k := k) hp, h1, hh]
        rw [e]
        have : ((names ign ops).filter fun m => decide (¬ Same m (nameOf ign k))) = names ign ops := by
          rw [List.filter_eq_self]
          intro n hn
          simp only [decide_eq_true_eq]
          exact fun e => hh ⟨n, hn, e⟩
        rw [this]; exact h
    | removeVals k =>
      dsimp only [Op.key, Op.names] at hp hv hne hb hs ⊢
      have e : (exec ini (.removeVals k)).2.lookup = ini.lookup := by simp [exec, kvRemoveVals, hb]
      rw [e]; exact h
    | removeAt k i =>
      dsimp only [Op.key, Op.names] at hp hv hne hb hs ⊢
      have e : (exec ini (.removeAt k i)).2.lookup = ini.lookup := by simp [exec, kvRemoveAt, hb]
      rw [e]; exact h
  · rw [exec_bad hv, names_snoc, if_neg hv]; exact h

theorem run_shown {ign : Bool} {ops : List Op} (hp : ∀ o ∈ ops, Plain ign o.key) (hs : ∀ o ∈ ops, Sectioned ign o.key) : Shown ign ops (run ign ops) := by
  induction ops using snocRec with
  | h0 => exact ⟨rfl, by simp [run, create], by simp [run, create], by simp [run, create], by simp [run, create]⟩
  | h1 ops o ih =>
    rw [run_snoc]
    have hp' : ∀ o ∈ ops, Plain ign o.key := fun o h => hp o (by simp [h])
    exact exec_shown (run_after hp') (ih hp' fun o h => hs o (by simp [h])) o (hp o (by simp)) (hs o (by simp))

end Verif.Ini
