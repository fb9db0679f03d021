import Verif.FsPath.Lemmas
/-! C78: what normalizing does to a path when no links are followed. -/
namespace Verif.FsPath
open Verif.Str

/-! ### Specification -/

/-- The path with the separators of the system. -/
def toSep (win : Bool) (p : List UInt8) : List UInt8 := if win then p.map (fun c => if c = 47 then 92 else c) else p

/-- A path whose names mean themselves: no variable of the environment, no drive behind the root, and outside Windows no backslash. -/
structure Fair (win : Bool) (p : List UInt8) : Prop where
  zero : 0 ∉ p
  back : win = false → 92 ∉ p
  env : ∀ n ∈ names win p, n.head? ≠ some 36 ∧ n.head? ≠ some 37
  drive : win = true → ∀ n ∈ restOf win p, isDrive n = false

/-- A name that is neither `.` nor `..`. -/
structure Plain (win : Bool) (n : List UInt8) : Prop where
  name : Name n
  drive : win = true → isDrive n = false
  dot : n ≠ [46]
  dots : n ≠ [46, 46]

/-- Names in normal form: plain names; if there is no root, some `..` may come first. -/
def Shape (win : Bool) (root : Option (List UInt8)) (ns : List (List UInt8)) : Prop :=
  ∃ k ps, ns = List.replicate k [46, 46] ++ ps ∧ (root ≠ none → k = 0) ∧ ∀ n ∈ ps, Plain win n

/-- A path in normal form: `.`, or the root and the names with one separator between them. -/
def Canon (win : Bool) (p : List UInt8) : Prop :=
  p = [46] ∨ ∃ root ns, p = render win root ns ∧ root.toList ++ ns ≠ [] ∧ Comps win root ns ∧ Shape win root ns

/-! ### The loop -/

theorem walk_append (l : List (List UInt8)) (a b : List (List UInt8)) : walk l (a ++ b) = walk (walk l a) b := List.foldl_append

theorem walk_plain {win : Bool} {n : List UInt8} (h : Plain win n) (l : List (List UInt8)) : walk l [n] = l ++ [n] := by
  simp [walk, step, h.dot, h.dots]

theorem walk_up (l : List (List UInt8)) : walk l [[46, 46]] = l.dropLast := rfl

theorem walk_dot (l : List (List UInt8)) : walk l [[46]] = l := rfl

theorem removeParent_spec {win : Bool} {root : Option (List UInt8)} {ns : List (List UInt8)} (hr : ∀ r, root = some r → r = [] ∨ (win = true ∧ isDrive r = true ∧ Name r))
    (h : Shape win root ns) : ∃ ns', removeParent win (root.toList ++ ns) = root.toList ++ ns' ∧ Shape win root ns' ∧
      (∀ l, (root ≠ none → l = []) → walk l ns' = (walk l ns).dropLast) ∧ ∀ n ∈ ns', n ∈ ns ∨ n = [46, 46] := by
  obtain ⟨k, ps, rfl, hk, hp⟩ := h
  rcases List.eq_nil_or_concat ps with rfl | ⟨ps', n, rfl⟩
  · cases k with
    | zero =>
      cases root with
      | none => exact ⟨[[46, 46]], rfl, ⟨1, [], rfl, by simp, by simp⟩, fun l _ => rfl, by simp⟩
      | some r =>
        refine ⟨[], ?_, ⟨0, [], rfl, by simp, by simp⟩, ?_, by simp⟩
        · have : (win = true ∧ isAbs win r = true) ∨ r = [] := by
            rcases hr r rfl with rfl | ⟨rfl, h1, h2⟩
            · exact Or.inr rfl
            · exact Or.inl ⟨rfl, by rw [isAbs_drive h2, h1]⟩
          simp [removeParent, this]
        · intro l hl; rw [hl (by simp)]; rfl
    | succ k =>
      have : root = none := Classical.byContradiction fun h => absurd (hk h) (by simp)
      subst this
      refine ⟨List.replicate (k + 2) [46, 46], ?_, ⟨k + 2, [], by simp, by simp, by simp⟩, ?_, by simp⟩
      · have hl : (List.replicate (k + 1) ([46, 46] : List UInt8) ++ []).getLast? = some [46, 46] := by rw [List.append_nil, List.replicate_succ', List.getLast?_concat]
        simp only [Option.toList_none, List.nil_append, removeParent]
        rw [hl]
        simp only
        rw [if_neg, if_pos trivial, List.append_nil, List.replicate_succ' (n := k + 1)]
        rintro (⟨_, h⟩ | h)
        · cases win <;> revert h <;> decide
        · cases h
      · intro l _
        rw [List.append_nil, List.replicate_succ' (n := k + 1), walk_append, walk_up]
  · have hn := hp n (by simp)
    refine ⟨List.replicate k [46, 46] ++ ps', ?_, ⟨k, ps', rfl, hk, fun x hx => hp x (by simp [hx])⟩, ?_, ?_⟩
    · have hl : (root.toList ++ (List.replicate k [46, 46] ++ (ps' ++ [n]))) = (root.toList ++ (List.replicate k [46, 46] ++ ps')) ++ [n] := by simp
      rw [List.concat_eq_append, hl, removeParent, List.getLast?_concat]
      simp only
      rw [if_neg, if_neg hn.dots, List.dropLast_concat]
      rintro (⟨rfl, h⟩ | h)
      · rw [isAbs_drive hn.name, hn.drive rfl] at h; cases h
      · exact hn.name.ne h
    · intro l _
      rw [List.concat_eq_append, ← List.append_assoc, walk_append _ _ [n], walk_plain hn, List.dropLast_concat]
    · intro x hx; left; rw [List.concat_eq_append, ← List.append_assoc]; exact List.mem_append_left _ hx

theorem loop_spec {win : Bool} {fl : Flags} {sys : Sys} {again : List UInt8 → Res} {root : Option (List UInt8)} (hnp : fl.noParent = false)
    (hr : ∀ r, root = some r → r = [] ∨ (win = true ∧ isDrive r = true ∧ Name r)) : ∀ (parts ns : List (List UInt8)),
    (∀ n ∈ parts, Name n ∧ (win = true → isDrive n = false)) → Shape win root ns →
    ∃ ns', normLoop win fl false sys again parts (root.toList ++ ns) = .inl (root.toList ++ ns') ∧ Shape win root ns' ∧
      (∀ l, (root ≠ none → l = []) → walk l ns' = walk l (ns ++ parts)) ∧ ∀ n ∈ ns', n ∈ ns ∨ n ∈ parts ∨ n = [46, 46] := by
  intro parts
  induction parts with
  | nil => intro ns _ h; exact ⟨ns, rfl, h, fun l _ => by simp, fun n hn => Or.inl hn⟩
  | cons s parts ih =>
    intro ns hp h
    have hp2 := fun n hn => hp n (List.mem_cons_of_mem s hn)
    rw [normLoop]
    by_cases h1 : s = [46, 46]
    · rw [if_pos ⟨hnp, h1⟩]
      obtain ⟨ns2, e, h2, h3, h4⟩ := removeParent_spec hr h
      obtain ⟨ns', e', h5, h6, h7⟩ := ih ns2 hp2 h2
      rw [e]
      refine ⟨ns', e', h5, fun l hl => ?_, fun n hn => ?_⟩
      · rw [h6 l hl, walk_append, h3 l hl, h1, walk_append]; rfl
      · rcases h7 n hn with h8 | h8 | h8
        · rcases h4 n h8 with h9 | h9
          · exact Or.inl h9
          · exact Or.inr (Or.inr h9)
        · exact Or.inr (Or.inl (by simp [h8]))
        · exact Or.inr (Or.inr h8)
    · rw [if_neg fun h => h1 h.2]
      by_cases h2 : s = [46]
      · rw [if_neg (by simpa using h2)]
        obtain ⟨ns', e', h5, h6, h7⟩ := ih ns hp2 h
        refine ⟨ns', e', h5, fun l hl => ?_, fun n hn => ?_⟩
        · rw [h6 l hl, h2, walk_append, walk_append]; rfl
        · rcases h7 n hn with h8 | h8 | h8
          · exact Or.inl h8
          · exact Or.inr (Or.inl (by simp [h8]))
          · exact Or.inr (Or.inr h8)
      · rw [if_pos h2, if_neg (by decide)]
        have hs : Plain win s := ⟨(hp s (by simp)).1, (hp s (by simp)).2, h2, h1⟩
        have hsh : Shape win root (ns ++ [s]) := by
          obtain ⟨k, ps, rfl, hk, hps⟩ := h
          refine ⟨k, ps ++ [s], by simp, hk, ?_⟩
          intro n hn
          rcases List.mem_append.1 hn with hn | hn
          · exact hps n hn
          · simp only [List.mem_singleton] at hn; rw [hn]; exact hs
        obtain ⟨ns', e', h5, h6, h7⟩ := ih (ns ++ [s]) hp2 hsh
        refine ⟨ns', by rw [List.append_assoc]; exact e', h5, fun l hl => ?_, fun n hn => ?_⟩
        · rw [h6 l hl]; simp
        · rcases h7 n hn with h8 | h8 | h8
          · rcases List.mem_append.1 h8 with h8 | h8
            · exact Or.inl h8
            · exact Or.inr (Or.inl (by simp at h8; simp [h8]))
          · exact Or.inr (Or.inl (by simp [h8]))
          · exact Or.inr (Or.inr h8)

theorem loop_noParent {win : Bool} {fl : Flags} {sys : Sys} {again : List UInt8 → Res} (hnp : fl.noParent = true) : ∀ (parts base : List (List UInt8)),
    normLoop win fl false sys again parts base = .inl (base ++ parts.filter (· ≠ [46])) := by
  intro parts
  induction parts with
  | nil => intro base; simp [normLoop]
  | cons s parts ih =>
    intro base
    rw [normLoop, if_neg (by rw [hnp]; simp)]
    by_cases h : s = [46]
    · rw [if_neg (by simpa using h), ih, List.filter_cons_of_neg (by simpa using h)]
    · rw [if_pos h, if_neg (by decide), ih, List.filter_cons_of_pos (by simpa using h)]; simp

theorem walk_filter (l : List (List UInt8)) (ns : List (List UInt8)) : walk l (ns.filter (· ≠ [46])) = walk l ns := by
  induction ns generalizing l with
  | nil => rfl
  | cons n ns ih =>
    by_cases h : n = [46]
    · rw [List.filter_cons_of_neg (by simpa using h), ih, h]; rfl
    · rw [List.filter_cons_of_pos (by simpa using h)]; exact ih _

/-- The text of a root and names; with neither it is `.`. -/
def text (win : Bool) (root : Option (List UInt8)) (ns : List (List UInt8)) : List UInt8 := if root = none ∧ ns = [] then [46] else render win root ns

/-- What follows the stages that change the parts. -/
def afterParts (win : Bool) (fl : Flags) (sys : Sys) (again : List UInt8 → Res) (parts : List (List UInt8)) : Res :=
  match normLoop win fl fl.follow sys again parts [] with
  | .inr r => r
  | .inl base =>
    match joinParts win base with
    | none => .ok [46]
    | some out => .ok out

theorem text_join {win : Bool} {root : Option (List UInt8)} {ns : List (List UInt8)} (h : Comps win root ns) :
    (match joinParts win (root.toList ++ ns) with
    | none => Res.ok [46]
    | some out => Res.ok out) = .ok (text win root ns) := by
  by_cases he : root = none ∧ ns = []
  · obtain ⟨rfl, rfl⟩ := he
    rfl
  · have hne : root.toList ++ ns ≠ [] := by
      intro h1
      refine he ?_
      cases root with
      | none => exact ⟨rfl, h1⟩
      | some r => simp at h1
    rw [joinParts_eq h hne, text, if_neg he]

theorem root_notdots {win : Bool} {r : List UInt8} (h : r = [] ∨ (win = true ∧ isDrive r = true ∧ Name r)) : r ≠ [46] ∧ r ≠ [46, 46] := by
  rcases h with rfl | ⟨_, h, _⟩
  · decide
  · constructor <;> (rintro rfl; revert h; decide)

theorem comps_shape {win : Bool} {root : Option (List UInt8)} {ns : List (List UInt8)} (hr : ∀ r, root = some r → r = [] ∨ (win = true ∧ isDrive r = true ∧ Name r))
    (h : Shape win root ns) : Comps win root ns := by
  refine ⟨hr, ?_⟩
  obtain ⟨k, ps, rfl, _, hp⟩ := h
  intro n hn
  rcases List.mem_append.1 hn with hn | hn
  · have := (List.mem_replicate.1 hn).2
    subst this
    exact ⟨⟨by decide, by decide, by decide, by decide⟩, fun _ => by decide⟩
  · exact ⟨(hp n hn).name, (hp n hn).drive⟩

theorem finish {win : Bool} {fl : Flags} {sys : Sys} {again : List UInt8 → Res} (hf : fl.follow = false) {root : Option (List UInt8)} {ns : List (List UInt8)} (h : Comps win root ns) :
    ∃ ns', afterParts win fl sys again (root.toList ++ ns) = .ok (text win root ns') ∧ Comps win root ns' ∧ (fl.noParent = false → Shape win root ns') ∧
      (∀ l, (root ≠ none → l = []) → walk l ns' = walk l ns) ∧ ∀ n ∈ ns', n ∈ ns ∨ n = [46, 46] := by
  unfold afterParts
  rw [hf]
  cases hnp : fl.noParent with
  | true =>
    rw [loop_noParent hnp, List.nil_append, List.filter_append]
    have hr : root.toList.filter (· ≠ [46]) = root.toList := by
      refine List.filter_eq_self.2 fun r hr => ?_
      rw [Option.mem_toList] at hr
      simpa using (root_notdots (h.root r hr)).1
    rw [hr]
    have hc : Comps win root (ns.filter (· ≠ [46])) := ⟨h.root, fun n hn => h.names n ((List.mem_filter.1 hn).1)⟩
    exact ⟨_, text_join hc, hc, fun h => absurd h (by decide), fun l _ => walk_filter l ns, fun n hn => Or.inl ((List.mem_filter.1 hn).1)⟩
  | false =>
    have h0 : normLoop win fl false sys again (root.toList ++ ns) [] = normLoop win fl false sys again ns (root.toList ++ []) := by
      cases root with
      | none => rfl
      | some r =>
        have := root_notdots (h.root r rfl)
        show normLoop win fl false sys again (r :: ns) [] = _
        rw [normLoop, if_neg fun h => this.2 h.2, if_pos this.1, if_neg (by decide)]; rfl
    obtain ⟨ns', e, h1, h2, h3⟩ := loop_spec (sys := sys) (again := again) hnp h.root ns [] h.names ⟨0, [], rfl, fun _ => rfl, by simp⟩
    have hc := comps_shape h.root h1
    rw [h0, e]
    refine ⟨ns', text_join hc, hc, fun _ => h1, fun l hl => by simpa using h2 l hl, fun n hn => ?_⟩
    rcases h3 n hn with h4 | h4 | h4
    · cases h4
    · exact Or.inl h4
    · exact Or.inr h4

theorem text_meaning {win : Bool} {root : Option (List UInt8)} {ns : List (List UInt8)} (h : Comps win root ns) : rootOf win (text win root ns) = root ∧
    ∀ l, walk l (restOf win (text win root ns)) = walk l ns := by
  unfold text
  by_cases he : root = none ∧ ns = []
  · rw [if_pos he, he.1, he.2]
    cases win with
    | false => exact ⟨by decide, fun l => rfl⟩
    | true => exact ⟨by decide, fun l => rfl⟩
  · rw [if_neg he]
    exact ⟨root_render h, fun l => by rw [rest_render h]⟩

/-! ### The parts -/

theorem toSep_fair_comps {win : Bool} {q : List UInt8} (hf : Fair win q) : Comps win (rootOf win q) (restOf win q) := by
  have hname : ∀ n ∈ names win q, Name n := by
    intro n hn
    obtain ⟨h1, h2⟩ := names_prop n hn
    refine ⟨h1, fun h => ?_, fun h => ?_, fun h => ?_⟩
    · have := (h2 _ h).2; revert this; cases win <;> decide
    · cases win with
      | true => have := (h2 _ h).2; revert this; decide
      | false => exact hf.back rfl (h2 _ h).1
    · exact hf.zero (h2 _ h).1
  refine ⟨?_, ?_⟩
  · intro r hr
    cases win with
    | false =>
      left
      rw [rootOf] at hr
      split at hr
      · exact (Option.some.inj hr).symm
      · cases hr
    | true =>
      rw [rootOf] at hr
      split at hr
      · exact Or.inl (Option.some.inj hr).symm
      · right
        obtain ⟨h1, h2⟩ := Option.filter_eq_some_iff.1 hr
        exact ⟨rfl, h2, hname r (List.mem_of_head? h1)⟩
  · intro n hn
    refine ⟨?_, fun hw => hf.drive hw n hn⟩
    rw [restOf] at hn
    split at hn
    · exact hname n hn
    · exact hname n (List.mem_of_mem_tail hn)

theorem comps_mem {win : Bool} {q : List UInt8} : ∀ n ∈ (rootOf win q).toList ++ restOf win q, n = [] ∨ n ∈ names win q := by
  intro n hn
  rcases List.mem_append.1 hn with h | h
  · rw [Option.mem_toList] at h
    cases win with
    | false =>
      rw [rootOf] at h
      split at h
      · exact Or.inl (Option.some.inj h).symm
      · cases h
    | true =>
      rw [rootOf] at h
      split at h
      · exact Or.inl (Option.some.inj h).symm
      · exact Or.inr (List.mem_of_head? (Option.filter_eq_some_iff.1 h).1)
  · right
    rw [restOf] at h
    split at h
    · exact h
    · exact List.mem_of_mem_tail h

theorem expandEnv_none {env : List UInt8 → Option (List UInt8)} {ds : List (List UInt8)} (hne : ds ≠ []) (h : ∀ n ∈ ds, n.head? ≠ some 36 ∧ n.head? ≠ some 37) : expandEnv env ds = some ds := by
  unfold expandEnv
  rw [if_neg, if_neg]
  · rw [List.any_eq_true]
    rintro ⟨n, hn, h1⟩
    have := h n hn
    simp only [Bool.or_eq_true, beq_iff_eq] at h1
    rcases h1 with h1 | h1
    · exact this.1 h1
    · exact this.2 h1
  · cases ds with
    | nil => exact absurd rfl hne
    | cons => simp

theorem normSep_eq {win : Bool} {max : Nat} {p : List UInt8} (h : p.length < max) : normSep win max p = some (toSep win p) := by
  rw [normSep, if_neg (by omega)]
  cases win with
  | false => simp [toSep]
  | true => simp [toSep, sysSep]

/-- The flags that hold after it is known whether the path names a machine. -/
def useFlags (win : Bool) (q : List UInt8) (fl : Flags) : Flags := if win = true ∧ isUnc q = true then { fl with follow := false } else fl

/-- The call with the parts made up. -/
theorem normInt_parts {win : Bool} {sys : Sys} {n : Nat} {fl : Flags} {seen : List (List UInt8)} {p : List UInt8} (hp : p ≠ []) (hs : p ∉ seen) (hl : p.length < sys.pathMax)
    (hf : Fair win (toSep win p)) (hne : (rootOf win (toSep win p)).toList ++ restOf win (toSep win p) ≠ []) :
    normInt win sys (n + 1) fl seen p =
      match (if (useFlags win (toSep win p) fl).home then normHome win sys.home ((rootOf win (toSep win p)).toList ++ restOf win (toSep win p))
        else some (some ((rootOf win (toSep win p)).toList ++ restOf win (toSep win p)))) with
      | none => .ub
      | some none => .err .generic
      | some (some parts) =>
        match (if (useFlags win (toSep win p) fl).absolute then normAbs win sys.cwd parts else some (some parts)) with
        | none => .ub
        | some none => .err .generic
        | some (some parts) => afterParts win (useFlags win (toSep win p) fl) sys (normInt win sys n (useFlags win (toSep win p) fl) (p :: seen)) parts := by
  have he : expandEnv sys.env ((rootOf win (toSep win p)).toList ++ restOf win (toSep win p)) = some ((rootOf win (toSep win p)).toList ++ restOf win (toSep win p)) := by
    refine expandEnv_none hne fun n hn => ?_
    rcases comps_mem n hn with rfl | h
    · simp
    · exact hf.env n h
  rw [normInt, if_neg hp]
  simp only
  rw [if_neg hs, normSep_eq hl]
  simp only
  rw [componentize_eq hf.zero hf.back]
  simp only
  rw [he]
  rfl

theorem nonempty_comps {win : Bool} {q : List UInt8} (h : rootOf win q ≠ none ∨ names win q ≠ []) : (rootOf win q).toList ++ restOf win q ≠ [] := by
  intro h1
  have h2 : rootOf win q = none := by
    cases hr : rootOf win q with
    | none => rfl
    | some r => rw [hr] at h1; simp at h1
  rcases h with h | h
  · exact h h2
  · rw [h2, restOf, if_pos (Or.inl h2)] at h1
    exact h h1

/-- The place that a root and names lead to. -/
def place (cwd : Loc) : Option (List UInt8) → List (List UInt8) → Loc
  | some r, ns => (r, walk [] ns)
  | none, ns => (cwd.1, walk cwd.2 ns)

theorem resolve_place (win : Bool) (cwd : Loc) (p : List UInt8) : resolve win cwd p = place cwd (rootOf win p) (restOf win p) := by
  rw [resolve]; cases rootOf win p <;> rfl

theorem finish_meaning {win : Bool} {fl : Flags} {sys : Sys} {again : List UInt8 → Res} (hf : fl.follow = false) {root : Option (List UInt8)} {ns : List (List UInt8)} (h : Comps win root ns) :
    ∃ out, afterParts win fl sys again (root.toList ++ ns) = .ok out ∧ (∀ cwd : Loc, resolve win cwd out = place cwd root ns) ∧ (fl.noParent = false → Canon win out) := by
  obtain ⟨ns', h1, h2, h3, h4, _⟩ := finish (sys := sys) (again := again) hf h
  obtain ⟨h5, h6⟩ := text_meaning h2
  refine ⟨_, h1, fun cwd => ?_, fun hnp => ?_⟩
  · rw [resolve_place, h5]
    cases root with
    | none => simp only [place, h6, h4 cwd.2 (by simp)]
    | some r => simp only [place, h6, h4 [] (by simp)]
  · unfold text
    split
    · exact Or.inl rfl
    · rename_i he
      refine Or.inr ⟨root, ns', rfl, ?_, h2, h3 hnp⟩
      intro h7
      refine he ?_
      cases root with
      | none => exact ⟨rfl, h7⟩
      | some r => simp at h7

theorem loop_id {win : Bool} {fl : Flags} {sys : Sys} {again : List UInt8 → Res} {root : Option (List UInt8)} (hnp : fl.noParent = false) {ns : List (List UInt8)} (h : Shape win root ns) :
    normLoop win fl false sys again ns (root.toList ++ []) = .inl (root.toList ++ ns) := by
  obtain ⟨k, ps, rfl, hk, hp⟩ := h
  have plain : ∀ (ps base : List (List UInt8)), (∀ n ∈ ps, Plain win n) → normLoop win fl false sys again ps base = .inl (base ++ ps) := by
    intro ps
    induction ps with
    | nil => intro base _; simp [normLoop]
    | cons n ps ih =>
      intro base h
      have hn := h n (by simp)
      rw [normLoop, if_neg fun h => hn.dots h.2, if_pos hn.dot, if_neg (by decide), ih _ fun x hx => h x (by simp [hx])]
      simp
  have dots : ∀ k j, root = none → normLoop win fl false sys again (List.replicate k [46, 46] ++ ps) (List.replicate j [46, 46]) = .inl (List.replicate (j + k) [46, 46] ++ ps) := by
    intro k
    induction k with
    | zero => intro j _; rw [List.replicate_zero, List.nil_append, plain ps _ hp]; rfl
    | succ k ih =>
      intro j hr
      rw [List.replicate_succ, List.cons_append, normLoop, if_pos ⟨hnp, rfl⟩]
      have : removeParent win (List.replicate j [46, 46]) = List.replicate (j + 1) [46, 46] := by
        cases j with
        | zero => rfl
        | succ j =>
          have hl : (List.replicate (j + 1) ([46, 46] : List UInt8)).getLast? = some [46, 46] := by rw [List.replicate_succ', List.getLast?_concat]
          rw [removeParent, hl]
          simp only
          rw [if_neg, if_pos trivial, List.replicate_succ' (n := j + 1)]
          rintro (⟨_, h⟩ | h)
          · cases win <;> revert h <;> decide
          · cases h
      rw [this, ih (j + 1) hr]
      congr 3
      omega
  cases root with
  | none => have := dots k 0 rfl; rw [Nat.zero_add] at this; exact this
  | some r =>
    rw [hk (by simp), List.replicate_zero, List.nil_append, plain ps _ hp]
    simp

theorem mem_join_sep {d : UInt8} {xs : List (List UInt8)} {c : UInt8} (h : c ∈ join [d] xs) : c = d ∨ ∃ x ∈ xs, c ∈ x := by
  induction xs with
  | nil => simp [join] at h
  | cons x xs ih =>
    cases xs with
    | nil => simp [join] at h; exact Or.inr ⟨x, by simp, h⟩
    | cons y ys =>
      rw [join_cons _ _ (by simp)] at h
      simp only [List.mem_append, List.mem_singleton] at h
      rcases h with (h | h) | h
      · exact Or.inr ⟨x, by simp, h⟩
      · exact Or.inl h
      · rcases ih h with h | ⟨z, hz, h⟩
        · exact Or.inl h
        · exact Or.inr ⟨z, by simp [hz], h⟩

theorem mem_render {win : Bool} {root : Option (List UInt8)} {ns : List (List UInt8)} (h : Comps win root ns) {c : UInt8} (hc : c ∈ render win root ns) :
    c = sepOf win ∨ (c ≠ 47 ∧ c ≠ 92 ∧ c ≠ 0) := by
  have hname : ∀ n, Name n → c ∈ n → c ≠ 47 ∧ c ≠ 92 ∧ c ≠ 0 := fun n hn hm => ⟨fun e => hn.slash (e ▸ hm), fun e => hn.back (e ▸ hm), fun e => hn.zero (e ▸ hm)⟩
  rw [render, List.mem_append] at hc
  rcases hc with hc | hc
  · match root, h, hc with
    | none, _, hc => simp [rootText] at hc
    | some [], _, hc => cases win <;> simp [rootText] at hc <;> exact Or.inl hc
    | some (a :: r), h, hc =>
      rcases h.root _ rfl with h1 | ⟨_, _, h1⟩
      · cases h1
      · rw [rootText, List.mem_append] at hc
        rcases hc with hc | hc
        · exact Or.inr (hname _ h1 hc)
        · exact Or.inl (by simpa using hc)
  · rcases mem_join_sep hc with hc | ⟨n, hn, hc⟩
    · exact Or.inl hc
    · exact Or.inr (hname n (h.names n hn).1 hc)

theorem canon_sep {win : Bool} {p : List UInt8} (h : Canon win p) : toSep win p = p := by
  cases win with
  | false => rfl
  | true =>
    show p.map _ = p
    rw [List.map_eq_iff]
    intro i
    cases hi : p[i]? with
    | none => rfl
    | some c =>
      have hm := List.mem_of_getElem? hi
      have : c ≠ 47 := by
        rcases h with rfl | ⟨root, ns, rfl, _, hc, _⟩
        · simp at hm; rw [hm]; decide
        · rcases mem_render hc hm with h1 | h1
          · rw [h1]; decide
          · exact h1.1
      simp [this]

theorem canon_fair {win : Bool} {p : List UInt8} (h : Canon win p) (henv : ∀ n ∈ names win p, n.head? ≠ some 36 ∧ n.head? ≠ some 37) : Fair win p := by
  rcases h with rfl | ⟨root, ns, rfl, _, hc, _⟩
  · exact ⟨by decide, fun _ => by decide, henv, by rintro rfl; decide⟩
  · refine ⟨fun h => ?_, ?_, henv, fun hw n hn => ?_⟩
    · rcases mem_render hc h with h1 | h1
      · revert h1; cases win <;> decide
      · exact h1.2.2 rfl
    · rintro rfl h
      rcases mem_render hc h with h1 | h1
      · revert h1; decide
      · exact h1.2.1 rfl
    · rw [rest_render hc] at hn
      exact (hc.names n hn).2 hw

theorem canon_some {win : Bool} {p : List UInt8} (h : Canon win p) : rootOf win p ≠ none ∨ names win p ≠ [] := by
  rcases h with rfl | ⟨root, ns, rfl, hne, hc, _⟩
  · right; cases win <;> decide
  · rw [root_render hc, names_render hc]
    cases root with
    | none => right; simpa using hne
    | some r => left; simp

theorem canon_ne {win : Bool} {p : List UInt8} (h : Canon win p) : p ≠ [] := by
  rintro rfl
  rcases canon_some h with h | h
  · revert h; cases win <;> decide
  · revert h; cases win <;> decide

/-! ### C78 -/

/-- How the parts come about from the path, its home directory and the current directory. -/
inductive Start (win : Bool) (sys : Sys) (fl : Flags) (q : List UInt8) : Option (List UInt8) → List (List UInt8) → Prop
  | plain (hh : fl.home = true → rootOf win q = none → (restOf win q).head? ≠ some [126]) (ha : fl.absolute = true → rootOf win q ≠ none) :
      Start win sys fl q (rootOf win q) (restOf win q)
  | home {h : List UInt8} {ns : List (List UInt8)} (hh : fl.home = true) (hr : rootOf win q = none) (hn : restOf win q = [126] :: ns) (hs : sys.home = some h) (hf : Fair win h)
      (ha : fl.absolute = true → rootOf win h ≠ none) :
      Start win sys fl q (rootOf win h) (restOf win h ++ ns)
  | abs {c : List UInt8} (hh : fl.home = true → (restOf win q).head? ≠ some [126]) (ha : fl.absolute = true) (hr : rootOf win q = none) (hs : sys.cwd = some c) (hf : Fair win c) :
      Start win sys fl q (rootOf win c) (restOf win c ++ restOf win q)

theorem start_parts {win : Bool} {sys : Sys} {fl : Flags} {p : List UInt8} (hfo : fl.follow = false) (hp : p ≠ []) (hl : p.length < sys.pathMax)
    (hf : Fair win (toSep win p)) (hne : (rootOf win (toSep win p)).toList ++ restOf win (toSep win p) ≠ []) {root : Option (List UInt8)} {ns : List (List UInt8)}
    (h : Start win sys fl (toSep win p) root ns) : Comps win root ns ∧ ∃ again, norm win sys fl p = afterParts win fl sys again (root.toList ++ ns) := by
  have hu : useFlags win (toSep win p) fl = fl := by
    unfold useFlags
    split
    · cases fl; simp only at hfo; simp [hfo]
    · rfl
  have hc := toSep_fair_comps hf
  have key := normInt_parts (n := 24) (fl := fl) (seen := []) hp (by simp) hl hf hne
  rw [hu] at key
  generalize toSep win p = q at h hf hne hc key
  have nohome : (fl.home = true → rootOf win q = none → (restOf win q).head? ≠ some [126]) → (if fl.home = true then normHome win sys.home ((rootOf win q).toList ++ restOf win q)
      else some (some ((rootOf win q).toList ++ restOf win q))) = some (some ((rootOf win q).toList ++ restOf win q)) := by
    intro hh
    cases hfh : fl.home with
    | false => rfl
    | true =>
      rw [if_pos rfl]
      unfold normHome
      rw [if_neg, if_neg]
      · intro h1
        cases hr : rootOf win q with
        | none => rw [hr] at h1; exact hh hfh hr h1
        | some r =>
          rw [hr] at h1
          simp only [Option.toList_some, List.cons_append, List.head?_cons, Option.some.injEq] at h1
          rcases hc.root r hr with h2 | ⟨_, h2, _⟩
          · rw [h2] at h1; cases h1
          · rw [h1] at h2; revert h2; decide
      · cases hq : (rootOf win q).toList ++ restOf win q with
        | nil => exact absurd hq hne
        | cons => simp
  have absroot : ∀ {r : List UInt8} {ns : List (List UInt8)}, (r = [] ∨ (win = true ∧ isDrive r = true ∧ Name r)) → normAbs win sys.cwd (r :: ns) = some (some (r :: ns)) := by
    intro r ns hr
    unfold normAbs
    simp only
    rw [if_pos]
    rcases hr with rfl | ⟨rfl, h1, h2⟩
    · exact Or.inl rfl
    · exact Or.inr ⟨rfl, by rw [isAbs_drive h2, h1]⟩
  cases h with
  | plain hh ha =>
    refine ⟨hc, ?_⟩
    rw [nohome hh] at key
    simp only at key
    refine ⟨normInt win sys 24 fl [p], key.trans ?_⟩
    cases hfa : fl.absolute with
    | false => rfl
    | true =>
      cases hr : rootOf win q with
      | none => exact absurd hr (ha hfa)
      | some r =>
        rw [if_pos rfl]
        have := absroot (ns := restOf win q) (hc.root r hr)
        simp only [Option.toList_some, List.singleton_append, this]
  | @home h ns hh hr hn hs hfh ha =>
    have hch := toSep_fair_comps hfh
    refine ⟨⟨hch.root, ?_⟩, ?_⟩
    · intro n hnm
      rcases List.mem_append.1 hnm with h1 | h1
      · exact hch.names n h1
      · exact hc.names n (by rw [hn]; simp [h1])
    · have h1 : (if fl.home = true then normHome win sys.home ((rootOf win q).toList ++ restOf win q) else some (some ((rootOf win q).toList ++ restOf win q))) =
          some (some ((rootOf win h).toList ++ (restOf win h ++ ns))) := by
        rw [if_pos hh, hr, hn]
        unfold normHome
        rw [if_neg (by simp), if_pos (by simp), hs]
        simp only
        rw [componentize_eq hfh.zero hfh.back]
        simp
      rw [h1] at key
      simp only at key
      refine ⟨normInt win sys 24 fl [p], key.trans ?_⟩
      cases hfa : fl.absolute with
      | false => rfl
      | true =>
        cases hr2 : rootOf win h with
        | none => exact absurd hr2 (ha hfa)
        | some r =>
          rw [if_pos rfl]
          have := absroot (ns := restOf win h ++ ns) (hch.root r hr2)
          simp only [Option.toList_some, List.singleton_append, this]
  | @abs c hh ha hr hs hfc =>
    have hcc := toSep_fair_comps hfc
    refine ⟨⟨hcc.root, ?_⟩, ?_⟩
    · intro n hnm
      rcases List.mem_append.1 hnm with h1 | h1
      · exact hcc.names n h1
      · exact hc.names n h1
    · rw [nohome fun h1 _ => hh h1] at key
      simp only at key
      refine ⟨normInt win sys 24 fl [p], key.trans ?_⟩
      rw [if_pos ha, hr]
      rw [hr] at hne
      simp only [Option.toList_none, List.nil_append] at hne ⊢
      cases hns : restOf win q with
      | nil => exact absurd hns hne
      | cons d ds =>
        have hd := hc.names d (by rw [hns]; simp)
        unfold normAbs
        simp only
        rw [if_neg, hs]
        · simp only
          rw [componentize_eq hfc.zero hfc.back]
          simp
        · rintro (h1 | ⟨rfl, h1⟩)
          · exact hd.1.ne h1
          · rw [isAbs_drive hd.1, hd.2 rfl] at h1; cases h1

/-- C78: if no links are followed, normalizing succeeds, and the result leads to the same place from any current directory.  Here
nothing is put in front of the path: it is not relative when an absolute path is asked for, and does not begin with `~` when that is
replaced.  Missing: variables of the environment, backslashes outside Windows (`_fails` below). -/
theorem norm_same_partial {win : Bool} {sys : Sys} {fl : Flags} {p : List UInt8} (hfo : fl.follow = false) (hp : p ≠ []) (hl : p.length < sys.pathMax)
    (hf : Fair win (toSep win p)) (hne : rootOf win (toSep win p) ≠ none ∨ names win (toSep win p) ≠ [])
    (hh : fl.home = true → rootOf win (toSep win p) = none → (names win (toSep win p)).head? ≠ some [126]) (ha : fl.absolute = true → rootOf win (toSep win p) ≠ none) :
    ∃ out, norm win sys fl p = .ok out ∧ (∀ cwd, resolve win cwd out = resolve win cwd (toSep win p)) ∧ (fl.noParent = false → Canon win out) := by
  have hne2 := nonempty_comps hne
  obtain ⟨hc, again, e⟩ := start_parts hfo hp hl hf hne2 (Start.plain (fun h1 h2 => by rw [restOf, if_pos (Or.inl h2)]; exact hh h1 h2) ha)
  obtain ⟨out, h1, h2, h3⟩ := finish_meaning hfo (sys := sys) (again := again) hc
  refine ⟨out, e.trans h1, fun cwd => ?_, h3⟩
  rw [h2, resolve_place]

/-- C78: `~` leads to where it leads from the home directory. -/
theorem norm_home {win : Bool} {sys : Sys} {fl : Flags} {p h : List UInt8} {ns : List (List UInt8)} (hfo : fl.follow = false) (hl : p.length < sys.pathMax)
    (hf : Fair win (toSep win p)) (hh : fl.home = true) (hr : rootOf win (toSep win p) = none) (hn : names win (toSep win p) = [126] :: ns) (hs : sys.home = some h) (hfh : Fair win h)
    (ha : fl.absolute = true → rootOf win h ≠ none) :
    ∃ out, norm win sys fl p = .ok out ∧ (∀ cwd, resolve win cwd out = ((resolve win cwd h).1, walk (resolve win cwd h).2 ns)) ∧ (fl.noParent = false → Canon win out) := by
  have hp : p ≠ [] := by rintro rfl; cases win <;> exact absurd hn (by simp [toSep, names, pieces])
  have hrest : restOf win (toSep win p) = [126] :: ns := by rw [restOf, if_pos (Or.inl hr), hn]
  obtain ⟨hc, again, e⟩ := start_parts hfo hp hl hf (nonempty_comps (Or.inr (by rw [hn]; simp))) (Start.home hh hr hrest hs hfh ha)
  obtain ⟨out, h1, h2, h3⟩ := finish_meaning hfo (sys := sys) (again := again) hc
  refine ⟨out, e.trans h1, fun cwd => ?_, h3⟩
  rw [h2, resolve_place]
  cases rootOf win h <;> simp [place, walk_append]

/-- C78: an absolute path leads from everywhere to where the relative one leads from the current directory. -/
theorem norm_absolute {win : Bool} {sys : Sys} {fl : Flags} {p c : List UInt8} (hfo : fl.follow = false) (hp : p ≠ []) (hl : p.length < sys.pathMax)
    (hf : Fair win (toSep win p)) (ha : fl.absolute = true) (hr : rootOf win (toSep win p) = none) (hne : names win (toSep win p) ≠ [])
    (hh : fl.home = true → (names win (toSep win p)).head? ≠ some [126]) (hs : sys.cwd = some c) (hfc : Fair win c) (hrc : rootOf win c ≠ none) :
    ∃ out, norm win sys fl p = .ok out ∧ rootOf win out ≠ none ∧ (∀ any, resolve win any out = resolve win (resolve win any c) (toSep win p)) ∧ (fl.noParent = false → Canon win out) := by
  have hrest : restOf win (toSep win p) = names win (toSep win p) := by rw [restOf, if_pos (Or.inl hr)]
  obtain ⟨hc, again, e⟩ := start_parts hfo hp hl hf (nonempty_comps (Or.inr hne)) (Start.abs (by rw [hrest]; exact hh) ha hr hs hfc)
  obtain ⟨out, h1, h2, h3⟩ := finish_meaning hfo (sys := sys) (again := again) hc
  refine ⟨out, e.trans h1, ?_, fun any => ?_, h3⟩
  · intro h4
    have := h2 ([], [])
    have h5 := h2 ([65], [])
    cases hr3 : rootOf win c with
    | none => exact hrc hr3
    | some r =>
      rw [hr3] at this h5
      simp only [resolve, h4, place, Prod.mk.injEq] at this h5
      rw [← this.1] at h5
      simp at h5
  · cases hr3 : rootOf win c with
    | none => exact absurd hr3 hrc
    | some r =>
      rw [h2]
      simp [resolve_place, place, hr, hr3, walk_append]

/-- C78: what is in normal form is left alone. -/
theorem norm_idem {win : Bool} {sys : Sys} {fl : Flags} {p : List UInt8} (hfo : fl.follow = false) (hnp : fl.noParent = false) (hh : fl.home = false) (hcn : Canon win p)
    (ha : fl.absolute = true → rootOf win p ≠ none) (hl : p.length < sys.pathMax) (henv : ∀ n ∈ names win p, n.head? ≠ some 36 ∧ n.head? ≠ some 37) :
    norm win sys fl p = .ok p := by
  have hts := canon_sep hcn
  have hf := canon_fair hcn henv
  have hp : p ≠ [] := canon_ne hcn
  have hne2 : rootOf win p ≠ none ∨ names win p ≠ [] := canon_some hcn
  have hf' := hf
  rw [← hts] at hf' hne2
  obtain ⟨hc, again, e⟩ := start_parts hfo hp hl hf' (nonempty_comps hne2) (Start.plain (fun h1 _ => absurd (h1.symm.trans hh) (by decide)) (by rw [hts]; exact ha))
  rw [e, hts]
  rcases hcn with rfl | ⟨root, ns, rfl, hne, hco, hsh⟩
  · have h1 : (rootOf win [46]).toList ++ restOf win [46] = [[46]] := by cases win <;> decide
    rw [h1, afterParts, hfo, normLoop, if_neg (by simp), if_neg (by decide)]
    rfl
  · rw [root_render hco, rest_render hco, afterParts, hfo]
    have h0 : normLoop win fl false sys again (root.toList ++ ns) [] = normLoop win fl false sys again ns (root.toList ++ []) := by
      cases root with
      | none => rfl
      | some r =>
        have := root_notdots (hco.root r rfl)
        show normLoop win fl false sys again (r :: ns) [] = _
        rw [normLoop, if_neg fun h => this.2 h.2, if_pos this.1, if_neg (by decide)]; rfl
    rw [h0, loop_id hnp hsh]
    simp only
    rw [joinParts_eq hco hne]

/-- No flags. -/
def fl0 : Flags := ⟨false, false, false, false⟩

/-- A system with one variable, `H` for `/h/u`, the home directory `/h/u` and the current directory `/w`. -/
def sys0 : Sys := ⟨fun n => if n = [72] then some [47, 104, 47, 117] else none, some [47, 104, 47, 117], some [47, 119], fun _ _ => .none, 4096⟩

/-- The hypotheses hold for `../a/./b//../c` and lead to `../a/c`. -/
example : ∃ out, norm false sys0 fl0 [46, 46, 47, 97, 47, 46, 47, 98, 47, 47, 46, 46, 47, 99] = .ok out ∧
    (∀ cwd, resolve false cwd out = resolve false cwd [46, 46, 47, 97, 47, 46, 47, 98, 47, 47, 46, 46, 47, 99]) ∧ (fl0.noParent = false → Canon false out) :=
  norm_same_partial rfl (by decide) (by decide) ⟨by decide, by decide, by decide, by decide⟩ (by decide) (by decide) (by decide)

example : norm false sys0 fl0 [46, 46, 47, 97, 47, 46, 47, 98, 47, 47, 46, 46, 47, 99] = .ok [46, 46, 47, 97, 47, 99] := by decide +kernel

/-- And for `C:/a/../b` on Windows, which leads to `C:\b`. -/
example : ∃ out, norm true sys0 fl0 [67, 58, 47, 97, 47, 46, 46, 47, 98] = .ok out ∧
    (∀ cwd, resolve true cwd out = resolve true cwd (toSep true [67, 58, 47, 97, 47, 46, 46, 47, 98])) ∧ (fl0.noParent = false → Canon true out) :=
  norm_same_partial rfl (by decide) (by decide) ⟨by decide, by decide, by decide, by decide⟩ (by decide) (by decide) (by decide)

example : norm true sys0 fl0 [67, 58, 47, 97, 47, 46, 46, 47, 98] = .ok [67, 58, 92, 98] := by decide +kernel

/-- `~/a` -/
example : ∃ out, norm false sys0 { fl0 with home := true } [126, 47, 97] = .ok out ∧
    (∀ cwd, resolve false cwd out = ((resolve false cwd [47, 104, 47, 117]).1, walk (resolve false cwd [47, 104, 47, 117]).2 [[97]])) ∧ (false = false → Canon false out) :=
  norm_home rfl (by decide) ⟨by decide, by decide, by decide, by decide⟩ rfl (by decide) (by decide) rfl ⟨by decide, by decide, by decide, by decide⟩ (by decide)

/-- `../a` as an absolute path. -/
example : ∃ out, norm false sys0 { fl0 with absolute := true } [46, 46, 47, 97] = .ok out ∧ rootOf false out ≠ none ∧
    (∀ any, resolve false any out = resolve false (resolve false any [47, 119]) [46, 46, 47, 97]) ∧ (false = false → Canon false out) :=
  norm_absolute rfl (by decide) (by decide) ⟨by decide, by decide, by decide, by decide⟩ rfl (by decide) (by decide) (by decide) rfl ⟨by decide, by decide, by decide, by decide⟩ (by decide)

/-- The value of a variable is one part: `$H/..` should be `/h` and is `.`; `$H` as an absolute path is `/w//h/u`. -/
theorem env_fails : norm false sys0 fl0 [36, 72, 47, 46, 46] = .ok [46] ∧ norm false sys0 { fl0 with absolute := true } [36, 72] = .ok [47, 119, 47, 47, 104, 47, 117] := by decide +kernel

/-- The file `a\b` becomes the file `b` in `a`. -/
theorem backslash_fails : norm false sys0 fl0 [97, 92, 98] = .ok [97, 47, 98] ∧ resolve false ([], []) [97, 92, 98] = ([], [[97, 92, 98]]) ∧
    resolve false ([], []) [97, 47, 98] = ([], [[97], [98]]) := by decide +kernel

/-- On Windows `\a` in the root of the drive becomes `a` in the current directory, and `\` alone is an error. -/
theorem drive_root_fails : norm true sys0 fl0 [92, 97] = .ok [97] ∧ norm true sys0 fl0 [92] = .err .generic := by decide +kernel

end Verif.FsPath
