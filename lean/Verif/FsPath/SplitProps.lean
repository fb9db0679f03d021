import Verif.FsPath.Props
/-! C79: directory, name and joining. -/
namespace Verif.FsPath
open Verif.Str

/-- C79: the name is the last name of the path and the directory is the rest; a path that is only a root is its own directory and has no
name, and a single name has no directory. -/
theorem split_spec {win : Bool} {p : List UInt8} (hp : p ≠ []) (hf : Fair win p) (hw : win = true → p.head? = some 47 ∨ p.head? = some 92 → [92, 92] <+: p) :
    basename win p = some (restOf win p).getLast? ∧
    dirname win p = some (if rootOf win p = none ∧ (restOf win p).length ≤ 1 then none else some (render win (rootOf win p) (restOf win p).dropLast)) := by
  have hc := toSep_fair_comps hf
  have habs : isAbs win p = true ↔ rootOf win p ≠ none := by
    cases win with
    | false =>
      rw [rootOf]
      by_cases h : p.head? = some 47
      · simp [isAbs, hp, h]
      · simp [isAbs, h]
    | true =>
      rw [rootOf]
      by_cases h : [92, 92] <+: p
      · simp [isAbs, hp, h, (isUnc_iff p).2 h]
      · have hu : isUnc p = false := by rw [Bool.eq_false_iff]; exact fun h1 => h ((isUnc_iff p).1 h1)
        rw [if_neg h]
        have hh : isSep true (p.head?.getD 0) = false := by
          cases p with
          | nil => exact absurd rfl hp
          | cons a r =>
            have h1 : a ≠ 47 := fun e => h (hw rfl (Or.inl (by simp [e])))
            have h2 : a ≠ 92 := fun e => h (hw rfl (Or.inr (by simp [e])))
            simp [isSep, h1, h2]
        -- the first name begins with the first character
        match p, hp, hu, hh with
        | [a], _, _, hh =>
          have : names true [a] = [[a]] := by
            simp only [List.head?_cons, Option.getD_some] at hh
            simp [names, pieces, hh]
          simp [this, isAbs, isUnc, Option.filter, isDrive]
        | a :: b :: r, _, hu, hh =>
          simp only [List.head?_cons, Option.getD_some] at hh
          have ha : a ≠ 92 := fun e => by rw [e] at hh; revert hh; decide
          by_cases hb : b = 58
          · subst hb
            have : ∃ t, (names true (a :: 58 :: r)).head? = some (a :: 58 :: t) := by
              have h58 : isSep true 58 = false := by decide
              cases hr : pieces (isSep true) r with
              | nil => exact absurd hr (pieces_ne _ _)
              | cons x xs => exact ⟨x, by simp [names, pieces, hh, h58, hr]⟩
            obtain ⟨t, ht⟩ := this
            simp [ht, isAbs, Option.filter, isDrive]
          · have hd : ∀ x, (names true (a :: b :: r)).head? = some x → isDrive x = false := by
              intro x hx
              cases hr : pieces (isSep true) r with
              | nil => exact absurd hr (pieces_ne _ _)
              | cons y ys =>
                by_cases hsb : isSep true b = true
                · simp [names, pieces, hh, hsb] at hx
                  rw [← hx]; rfl
                · have hsb : isSep true b = false := by simpa using hsb
                  simp [names, pieces, hh, hsb, hr] at hx
                  rw [← hx]
                  unfold isDrive
                  split
                  · rename_i e; simp only [List.cons.injEq] at e; exact absurd e.2.1 hb
                  · rfl
            have hno : (names true (a :: b :: r)).head?.filter isDrive = none := by
              cases hx : (names true (a :: b :: r)).head? with
              | none => rfl
              | some x => simp [Option.filter, hd x hx]
            rw [hno]
            simp [isAbs, hu, hb, ha]
  have hcomp := componentize_eq hf.zero hf.back
  have hr := hc.root
  generalize rootOf win p = root at *
  generalize restOf win p = ns at *
  have hj : ∀ ns', (∀ n ∈ ns', n ∈ ns) → root.toList ++ ns' ≠ [] → joinParts win (root.toList ++ ns') = some (render win root ns') := fun ns' h1 h2 =>
    joinParts_eq ⟨hc.root, fun n hn => hc.names n (h1 n hn)⟩ h2
  unfold basename dirname split
  rw [if_neg hp, hcomp]
  simp only [Option.map_some, Option.some.injEq]
  rcases List.eq_nil_or_concat ns with rfl | ⟨ns', n, rfl⟩
  · cases root with
    | none =>
      have : isAbs win p = false := by rw [Bool.eq_false_iff]; exact fun h => habs.1 h rfl
      simp [this, joinParts]
    | some r =>
      have : isAbs win p = true := habs.2 (by simp)
      have h1 := hj [] (by simp) (by simp)
      simp only [Option.toList_some, List.append_nil] at h1
      simp [this, h1]
  · rw [List.concat_eq_append, ← List.append_assoc, List.getLast?_concat, List.dropLast_concat]
    have hn := hc.names n (by simp)
    have hcond : ¬ ((root.toList ++ ns').length = 0 ∧ isAbs win p = true) := by
      rintro ⟨h1, h2⟩
      cases root with
      | none => exact habs.1 h2 rfl
      | some r => simp at h1
    rw [if_neg hcond]
    simp only [Option.some.injEq, hn.1.ne, if_false, List.getLast?_append, List.getLast?_singleton, Option.some_or, List.dropLast_concat, true_and]
    by_cases h1 : root = none ∧ (ns' ++ [n]).length ≤ 1
    · rw [if_pos h1, h1.1]
      have : ns' = [] := by
        have := h1.2
        simp at this; exact this
      simp [this, joinParts]
    · rw [if_neg h1]
      refine hj ns' (by simp +contextual) ?_
      intro h2
      refine h1 ?_
      cases root with
      | none => simp at h2; exact ⟨rfl, by simp [h2]⟩
      | some r => simp at h2

/-- C79: the name leads from the directory to where the path leads. -/
theorem split_place {win : Bool} {p : List UInt8} (hp : p ≠ []) (hf : Fair win p) (hw : win = true → p.head? = some 47 ∨ p.head? = some 92 → [92, 92] <+: p) {d b : List UInt8}
    (hd : dirname win p = some (some d)) (hb : basename win p = some (some b)) (cwd : Loc) :
    resolve win cwd p = ((resolve win cwd d).1, walk (resolve win cwd d).2 [b]) := by
  obtain ⟨h1, h2⟩ := split_spec hp hf hw
  have hc := toSep_fair_comps hf
  rw [h1] at hb
  rw [h2] at hd
  simp only [Option.some.injEq] at hb hd
  split at hd
  · cases hd
  · have hd := Option.some.inj hd
    have hns : restOf win p = (restOf win p).dropLast ++ [b] := by
      obtain ⟨ys, h⟩ := List.getLast?_eq_some_iff.1 hb
      rw [h]; simp
    have hc2 : Comps win (rootOf win p) (restOf win p).dropLast := ⟨hc.root, fun n hn => hc.names n ((List.dropLast_sublist _).subset hn)⟩
    rw [← hd, resolve_place, resolve_place, root_render hc2, rest_render hc2]
    generalize (restOf win p).dropLast = ds at hns
    rw [hns]
    cases rootOf win p <;> simp [place, walk_append]

/-- C79: outside Windows, joining two paths leads to where the second leads from where the first leads. -/
theorem join_place (p1 p2 : List UInt8) (cwd : Loc) : resolve false cwd (pathJoin false p1 p2) = resolve false (resolve false cwd p1) p2 := by
  have hrest : ∀ p, restOf false p = names false p := by
    intro p
    have : rootOf false p = none ∨ rootOf false p = some [] := by rw [rootOf]; split <;> simp
    rw [restOf, if_pos this]
  by_cases h2 : p2.head? = some 47
  · have hne : p2 ≠ [] := by rintro rfl; simp at h2
    have : isAbs false p2 = true := by simp [isAbs, hne, h2]
    rw [pathJoin, if_pos this]
    simp [resolve_place, rootOf, h2, place]
  · have ha : isAbs false p2 = false := by simp [isAbs, h2]
    rw [pathJoin, if_neg (by rw [ha]; decide)]
    have hr2 : rootOf false p2 = none := by rw [rootOf, if_neg h2]
    by_cases h1 : p1 = []
    · subst h1
      have : rootOf false ([] : List UInt8) = none := by decide
      simp [resolve_place, hr2, place, this, hrest, names, pieces, walk]
    · -- the names are those of both
      have hroot : ∀ x, rootOf false (p1 ++ x) = rootOf false p1 := by
        intro x
        cases p1 with
        | nil => exact absurd rfl h1
        | cons a r => rfl
      have hnames : names false (p1 ++ (if p1 ≠ [] ∧ p2 ≠ [] ∧ p1.getLast? ≠ some (sysSep false) then [sysSep false] else []) ++ p2) = names false p1 ++ names false p2 := by
        split
        · rw [List.append_assoc, List.singleton_append, names_sep_append (by decide)]
        · rename_i hc
          by_cases hp2 : p2 = []
          · subst hp2; simp [names, pieces]
          · have hl : p1.getLast? = some 47 := Classical.byContradiction fun h => hc ⟨h1, hp2, h⟩
            obtain ⟨x, hx⟩ := List.getLast?_eq_some_iff.1 hl
            rw [List.append_nil, hx, List.append_assoc, List.singleton_append, names_sep_append (by decide), names_sep_append (by decide)]
            simp [names, pieces]
      rw [resolve_place, resolve_place, resolve_place, hrest, hnames, List.append_assoc, hroot, hr2, hrest, hrest]
      cases rootOf false p1 <;> simp [place, walk_append]

/-- `/usr/bin/` has the directory `/usr` and the name `bin`. -/
example : basename false [47, 117, 115, 114, 47, 98, 105, 110, 47] = some (some [98, 105, 110]) ∧ dirname false [47, 117, 115, 114, 47, 98, 105, 110, 47] = some (some [47, 117, 115, 114]) := by
  obtain ⟨h1, h2⟩ := split_spec (win := false) (p := [47, 117, 115, 114, 47, 98, 105, 110, 47]) (by decide) ⟨by decide, by decide, by decide, by decide⟩ (by decide)
  exact ⟨h1.trans (by decide), h2.trans (by decide)⟩

/-- On Windows `C:/a` has the directory `C:\` and the name `a`. -/
example : basename true [67, 58, 47, 97] = some (some [97]) ∧ dirname true [67, 58, 47, 97] = some (some [67, 58, 92]) := by
  obtain ⟨h1, h2⟩ := split_spec (win := true) (p := [67, 58, 47, 97]) (by decide) ⟨by decide, by decide, by decide, by decide⟩ (by decide)
  exact ⟨h1.trans (by decide), h2.trans (by decide)⟩

/-- On Windows two separators of the other kind are not the name of a machine here, although normalizing takes them for one: the directory
of `//s/a` is `s`. -/
theorem unc_fails : dirname true [47, 47, 115, 47, 97] = some (some [115]) ∧ norm true sys0 fl0 [47, 47, 115, 47, 97] = .ok [92, 92, 115, 92, 97] := by decide +kernel

end Verif.FsPath
