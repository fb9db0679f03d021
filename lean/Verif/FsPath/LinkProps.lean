import Verif.FsPath.Props
/-! C80: following links. -/
namespace Verif.FsPath
open Verif.Str

/-! ### Specification -/

/-- Where names lead in a file system with links: `fs` gives the text of the link at a place.  The number counts the links. -/
inductive Phys (fs : List (List UInt8) → Option (List UInt8)) : Nat → List (List UInt8) → List (List UInt8) → List (List UInt8) → Prop
  | nil (l) : Phys fs 0 l [] l
  | dot {k l n ns r} (hn : n = [46]) (h : Phys fs k l ns r) : Phys fs k l (n :: ns) r
  | up {k l n ns r} (hn : n = [46, 46]) (h : Phys fs k l.dropLast ns r) : Phys fs k l (n :: ns) r
  | plain {k l n ns r} (h1 : n ≠ [46]) (h2 : n ≠ [46, 46]) (hf : fs (l ++ [n]) = none) (h : Phys fs k (l ++ [n]) ns r) : Phys fs k l (n :: ns) r
  | link {k l n ns r t} (h1 : n ≠ [46]) (h2 : n ≠ [46, 46]) (hf : fs (l ++ [n]) = some t)
      (h : Phys fs k (if rootOf false t = none then l else []) (names false t ++ ns) r) : Phys fs (k + 1) l (n :: ns) r

/-- The place and all above it are no links. -/
def Clear (fs : List (List UInt8) → Option (List UInt8)) (l : List (List UInt8)) : Prop := ∀ m, m <+: l → fs m = none

/-- Where a path starts. -/
def startAt (cwd : List (List UInt8)) (root : Option (List UInt8)) : List (List UInt8) := if root = none then cwd else []

/-- The system answers for the file system: the current directory is a real place, links are text whose names mean themselves, and asking for
the link at a path in normal form, whose directory is a real place, gives the link at that place, or an error. -/
structure Agrees (sys : Sys) (fs : List (List UInt8) → Option (List UInt8)) (cwd : List (List UInt8)) : Prop where
  root : ∀ last, sys.readlink [47] last = .none
  here : Clear fs cwd
  fair : ∀ l t, fs l = some t → Fair false t ∧ t ≠ []
  none : ∀ root ns n last, (∀ r, root = some r → r = []) → Shape false root (ns ++ [n]) → Plain false n → Clear fs (walk (startAt cwd root) ns) →
    sys.readlink (render false root (ns ++ [n])) last = .none → fs (walk (startAt cwd root) ns ++ [n]) = Option.none
  link : ∀ root ns n last t, (∀ r, root = some r → r = []) → Shape false root (ns ++ [n]) → Plain false n → Clear fs (walk (startAt cwd root) ns) →
    sys.readlink (render false root (ns ++ [n])) last = .to t → fs (walk (startAt cwd root) ns ++ [n]) = some t

/-! ### Lemmas -/

variable {fs : List (List UInt8) → Option (List UInt8)}

theorem phys_det {k l ns r} (h : Phys fs k l ns r) : ∀ {k' r'}, Phys fs k' l ns r' → k' = k ∧ r' = r := by
  induction h with
  | nil l => intro k' r' h; cases h; exact ⟨rfl, rfl⟩
  | dot hn _ ih =>
    intro k' r' h
    cases h with
    | dot _ h => exact ih h
    | up h1 _ => rw [hn] at h1; cases h1
    | plain h1 => exact absurd hn h1
    | link h1 => exact absurd hn h1
  | up hn _ ih =>
    intro k' r' h
    cases h with
    | dot h1 _ => rw [hn] at h1; cases h1
    | up _ h => exact ih h
    | plain _ h1 => exact absurd hn h1
    | link _ h1 => exact absurd hn h1
  | plain h1 h2 hf _ ih =>
    intro k' r' h
    cases h with
    | dot h3 _ => exact absurd h3 h1
    | up h3 _ => exact absurd h3 h2
    | plain _ _ _ h => exact ih h
    | link _ _ hf' => rw [hf] at hf'; cases hf'
  | link h1 h2 hf _ ih =>
    intro k' r' h
    cases h with
    | dot h3 _ => exact absurd h3 h1
    | up h3 _ => exact absurd h3 h2
    | plain _ _ hf' => rw [hf] at hf'; cases hf'
    | link _ _ hf' h =>
      rw [hf] at hf'
      cases hf'
      obtain ⟨h4, h5⟩ := ih h
      exact ⟨by rw [h4], h5⟩

theorem phys_dot {k l ns r} : Phys fs k l ([46] :: ns) r ↔ Phys fs k l ns r := by
  constructor
  · intro h
    cases h with
    | dot _ h => exact h
    | up h => cases h
    | plain h => exact absurd rfl h
    | link h => exact absurd rfl h
  · exact fun h => .dot rfl h

theorem phys_up {k l ns r} : Phys fs k l ([46, 46] :: ns) r ↔ Phys fs k l.dropLast ns r := by
  constructor
  · intro h
    cases h with
    | dot h => cases h
    | up _ h => exact h
    | plain _ h => exact absurd rfl h
    | link _ h => exact absurd rfl h
  · exact fun h => .up rfl h

theorem phys_plain {k l n ns r} (h1 : n ≠ [46]) (h2 : n ≠ [46, 46]) (hf : fs (l ++ [n]) = none) : Phys fs k l (n :: ns) r ↔ Phys fs k (l ++ [n]) ns r := by
  constructor
  · intro h
    cases h with
    | dot h => exact absurd h h1
    | up h => exact absurd h h2
    | plain _ _ _ h => exact h
    | link _ _ hf' => rw [hf] at hf'; cases hf'
  · exact fun h => .plain h1 h2 hf h

theorem phys_link {k l n ns r t} (h1 : n ≠ [46]) (h2 : n ≠ [46, 46]) (hf : fs (l ++ [n]) = some t) :
    Phys fs (k + 1) l (n :: ns) r ↔ Phys fs k (if rootOf false t = none then l else []) (names false t ++ ns) r := by
  constructor
  · intro h
    cases h with
    | dot h => exact absurd h h1
    | up h => exact absurd h h2
    | plain _ _ hf' => rw [hf] at hf'; cases hf'
    | link _ _ hf' h => rw [hf] at hf'; cases hf'; exact h
  · exact fun h => .link h1 h2 hf h

theorem phys_link_pos {k l n ns r t} (h1 : n ≠ [46]) (h2 : n ≠ [46, 46]) (hf : fs (l ++ [n]) = some t) (h : Phys fs k l (n :: ns) r) : ∃ j, k = j + 1 := by
  cases h with
  | dot h => exact absurd h h1
  | up h => exact absurd h h2
  | plain _ _ hf' => rw [hf] at hf'; cases hf'
  | link _ _ hf' h => exact ⟨_, rfl⟩

theorem phys_shape {root : Option (List UInt8)} {ns : List (List UInt8)} (h : Shape false root ns) {l : List (List UInt8)} (hc : Clear fs (walk l ns)) (k : Nat) (x r : List (List UInt8)) :
    Phys fs k l (ns ++ x) r ↔ Phys fs k (walk l ns) x r := by
  obtain ⟨j, ps, rfl, _, hp⟩ := h
  have up : ∀ j (l y), Phys fs k l (List.replicate j [46, 46] ++ y) r ↔ Phys fs k (walk l (List.replicate j [46, 46])) y r := by
    intro j
    induction j with
    | zero => intro l y; rfl
    | succ j ih => intro l y; rw [List.replicate_succ, List.cons_append, phys_up, ih]; rfl
  have plain : ∀ (ps l : List (List UInt8)), (∀ n ∈ ps, Plain false n) → walk l ps = l ++ ps := by
    intro ps
    induction ps with
    | nil => intro l _; simp [walk]
    | cons n ps ih =>
      intro l h
      have hn := h n (by simp)
      show walk (step l n) ps = _
      rw [ih _ fun x hx => h x (by simp [hx])]
      simp [step, hn.dot, hn.dots]
  have go : ∀ (ps l : List (List UInt8)), (∀ n ∈ ps, Plain false n) → (∀ m, m <+: l ++ ps → fs m = none) → (Phys fs k l (ps ++ x) r ↔ Phys fs k (l ++ ps) x r) := by
    intro ps
    induction ps with
    | nil => intro l _ _; simp
    | cons n ps ih =>
      intro l h hm
      have hn := h n (by simp)
      rw [List.cons_append, phys_plain hn.dot hn.dots (hm _ ⟨ps, by simp⟩), ih _ (fun x hx => h x (by simp [hx])) (by simpa using hm)]
      simp
  rw [walk_append, plain ps _ hp] at hc ⊢
  rw [List.append_assoc, up, go ps _ hp hc]

theorem clear_dropLast {l : List (List UInt8)} (h : Clear fs l) : Clear fs l.dropLast := fun m hm => h m (hm.trans (List.dropLast_prefix l))

theorem clear_append {l : List (List UInt8)} {n : List UInt8} (h : Clear fs l) (hn : fs (l ++ [n]) = none) : Clear fs (l ++ [n]) := by
  intro m hm
  rcases List.prefix_concat_iff.1 hm with h1 | h1
  · rw [h1]; exact hn
  · exact h m h1

/-- The name is no variable of the environment. -/
def NoVar (n : List UInt8) : Prop := n.head? ≠ some 36 ∧ n.head? ≠ some 37

theorem unix_rest (p : List UInt8) : restOf false p = names false p := by
  have : rootOf false p = none ∨ rootOf false p = some [] := by rw [rootOf]; split <;> simp
  rw [restOf, if_pos this]

theorem unix_root {p : List UInt8} {r : List UInt8} (h : rootOf false p = some r) : r = [] := by
  rw [rootOf] at h
  split at h
  · exact (Option.some.inj h).symm
  · cases h

theorem unix_isAbs {p : List UInt8} : isAbs false p = true ↔ rootOf false p ≠ none := by
  rw [rootOf]
  by_cases h : p.head? = some 47
  · have : p ≠ [] := by rintro rfl; simp at h
    simp [isAbs, this, h]
  · simp [isAbs, h]

theorem render_fair {root : Option (List UInt8)} {ns : List (List UInt8)} (hr : ∀ r, root = some r → r = []) (h : Comps false root ns) (hv : ∀ n ∈ ns, NoVar n) : Fair false (render false root ns) := by
  refine ⟨fun h1 => ?_, fun _ h1 => ?_, ?_, fun h => by cases h⟩
  · rcases mem_render h h1 with h2 | h2
    · revert h2; decide
    · exact h2.2.2 rfl
  · rcases mem_render h h1 with h2 | h2
    · revert h2; decide
    · exact h2.2.1 rfl
  · rw [names_render h]
    intro n hn
    rcases List.mem_append.1 hn with hn | hn
    · rw [List.mem_filter, Option.mem_toList] at hn
      have := hr n hn.1
      simp [this] at hn
    · exact hv n hn

/-- What the loop does. -/
inductive Outcome (fs : List (List UInt8) → Option (List UInt8)) (cwd : List (List UInt8)) (again : List UInt8 → Res) (root : Option (List UInt8)) (l parts : List (List UInt8)) :
    List (List UInt8) ⊕ Res → Prop
  | done {ns'} (hs : Shape false root ns') (hc : Clear fs (walk (startAt cwd root) ns')) (h : Phys fs 0 l parts (walk (startAt cwd root) ns')) :
      Outcome fs cwd again root l parts (.inl (root.toList ++ ns'))
  | sys : Outcome fs cwd again root l parts (.inr (.err .sys))
  | link {root' ns'} (hr : ∀ r, root' = some r → r = []) (habs : root ≠ none → root' ≠ none) (hne : root'.toList ++ ns' ≠ []) (hc : Comps false root' ns') (hv : ∀ n ∈ ns', NoVar n)
      (h : ∀ k r, Phys fs k (startAt cwd root') ns' r ↔ Phys fs (k + 1) l parts r) (hpos : ∀ k r, Phys fs k l parts r → ∃ j, k = j + 1) :
      Outcome fs cwd again root l parts (.inr (again (render false root' ns')))

theorem Outcome.mono {cwd : List (List UInt8)} {again : List UInt8 → Res} {root : Option (List UInt8)} {l l' parts parts' : List (List UInt8)} {o : List (List UInt8) ⊕ Res}
    (h : Outcome fs cwd again root l parts o) (e : ∀ k r, Phys fs k l parts r ↔ Phys fs k l' parts' r) : Outcome fs cwd again root l' parts' o := by
  cases h with
  | done hs hc h => exact .done hs hc ((e _ _).1 h)
  | sys => exact .sys
  | link hr habs hne hc hv h hpos => exact .link hr habs hne hc hv (fun k r => (h k r).trans (e _ _)) (fun k r h1 => hpos k r ((e _ _).2 h1))

theorem loop_link {sys : Sys} {cwd : List (List UInt8)} (hag : Agrees sys fs cwd) {fl : Flags} (hnp : fl.noParent = false) {again : List UInt8 → Res} {root : Option (List UInt8)}
    (hr : ∀ r, root = some r → r = []) : ∀ (parts ns : List (List UInt8)), (∀ n ∈ parts, Name n) → (∀ n ∈ parts, NoVar n) → (∀ n ∈ ns, NoVar n) → Shape false root ns →
    Clear fs (walk (startAt cwd root) ns) →
    Outcome fs cwd again root (walk (startAt cwd root) ns) parts (normLoop false fl true sys again parts (root.toList ++ ns)) := by
  have hr' : ∀ r, root = some r → r = [] ∨ ((false : Bool) = true ∧ isDrive r = true ∧ Name r) := fun r h => Or.inl (hr r h)
  intro parts
  induction parts with
  | nil => intro ns _ _ _ hs hc; exact .done hs hc (.nil _)
  | cons s parts ih =>
    intro ns hp hv hvn hs hc
    have hp2 := fun n hn => hp n (List.mem_cons_of_mem s hn)
    have hv2 := fun n hn => hv n (List.mem_cons_of_mem s hn)
    rw [normLoop]
    by_cases h1 : s = [46, 46]
    · rw [if_pos ⟨hnp, h1⟩]
      obtain ⟨ns2, e, h2, h3, h4⟩ := removeParent_spec hr' hs
      have h3 := h3 (startAt cwd root) (by intro h; simp [startAt, h])
      rw [e]
      have hvn2 : ∀ n ∈ ns2, NoVar n := by
        intro n hn
        rcases h4 n hn with h5 | h5
        · exact hvn n h5
        · rw [h5]; exact ⟨by decide, by decide⟩
      have := ih ns2 hp2 hv2 hvn2 h2 (by rw [h3]; exact clear_dropLast hc)
      refine this.mono fun k r => ?_
      rw [h3, h1, phys_up]
    · rw [if_neg fun h => h1 h.2]
      by_cases h2 : s = [46]
      · rw [if_neg (by simpa using h2)]
        refine (ih ns hp2 hv2 hvn hs hc).mono fun k r => ?_
        rw [h2, phys_dot]
      · rw [if_pos h2, if_pos rfl]
        have hpl : Plain false s := ⟨hp s (by simp), (fun h => by cases h), h2, h1⟩
        have hsh : Shape false root (ns ++ [s]) := by
          obtain ⟨k, ps, rfl, hk, hps⟩ := hs
          refine ⟨k, ps ++ [s], by simp, hk, ?_⟩
          intro n hn
          rcases List.mem_append.1 hn with hn | hn
          · exact hps n hn
          · simp only [List.mem_singleton] at hn; rw [hn]; exact hpl
        have hco := comps_shape hr' hsh
        have hj : joinParts false (root.toList ++ ns ++ [s]) = some (render false root (ns ++ [s])) := by
          rw [List.append_assoc]; exact joinParts_eq hco (by simp)
        rw [normLink, if_neg (by simp), hj]
        simp only
        cases hrl : sys.readlink (render false root (ns ++ [s])) (parts.length == 0) with
        | err => exact .sys
        | none =>
          have hfs := hag.none root ns s _ hr hsh hpl hc hrl
          have hw : walk (startAt cwd root) (ns ++ [s]) = walk (startAt cwd root) ns ++ [s] := by rw [walk_append, walk_plain hpl]
          have := ih (ns ++ [s]) hp2 hv2 (by
            intro n hn
            rcases List.mem_append.1 hn with hn | hn
            · exact hvn n hn
            · simp only [List.mem_singleton] at hn; rw [hn]; exact hv s (by simp)) hsh (by rw [hw]; exact clear_append hc hfs)
          rw [← List.append_assoc] at this
          refine this.mono fun k r => ?_
          rw [hw, phys_plain h2 h1 hfs]
        | to t =>
          have hfs := hag.link root ns s _ t hr hsh hpl hc hrl
          obtain ⟨hft, htne⟩ := hag.fair _ _ hfs
          have hct := toSep_fair_comps hft
          rw [unix_rest] at hct
          simp only
          rw [componentize_eq hft.zero hft.back, unix_rest]
          simp only [Option.map_some]
          have hpos : ∀ k r, Phys fs k (walk (startAt cwd root) ns) (s :: parts) r → ∃ j, k = j + 1 := fun k r => phys_link_pos h2 h1 hfs
          cases hrt : rootOf false t with
          | none =>
            have hab : isAbs false t = false := by rw [Bool.eq_false_iff]; exact fun h => unix_isAbs.1 h hrt
            have hnt : names false t ≠ [] := by
              cases t with
              | nil => exact absurd rfl htne
              | cons a t =>
                have : isSep false a = false := by
                  rw [rootOf] at hrt
                  have : a ≠ 47 := by rintro rfl; simp at hrt
                  simp [isSep, this]
                rw [names, pieces, if_neg (by rw [this]; decide)]
                cases pieces (isSep false) t <;> simp
            have hco2 : Comps false root (ns ++ (names false t ++ parts)) := by
              refine ⟨hr', fun n hn => ?_⟩
              rcases List.mem_append.1 hn with hn | hn
              · exact (comps_shape hr' hs).names n hn
              · rcases List.mem_append.1 hn with hn | hn
                · exact hct.names n hn
                · exact ⟨hp2 n hn, fun h => by cases h⟩
            have hne2 : root.toList ++ (ns ++ (names false t ++ parts)) ≠ [] := by simp [hnt]
            have hb : (if isAbs false t = true then [] else (root.toList ++ ns ++ [s]).dropLast) ++ (none.toList ++ names false t) ++ parts =
                root.toList ++ (ns ++ (names false t ++ parts)) := by
              rw [hab]; simp
            rw [hb, joinParts_eq hco2 hne2]
            refine .link hr id hne2 hco2 ?_ (fun k r => ?_) hpos
            · intro n hn
              rcases List.mem_append.1 hn with hn | hn
              · exact hvn n hn
              · rcases List.mem_append.1 hn with hn | hn
                · exact hft.env n hn
                · exact hv2 n hn
            · rw [phys_shape hs hc, phys_link h2 h1 hfs, if_pos hrt]
          | some r =>
            have := unix_root hrt
            subst this
            have hab : isAbs false t = true := unix_isAbs.2 (by rw [hrt]; simp)
            have hco2 : Comps false (some []) (names false t ++ parts) := by
              refine ⟨fun r h => Or.inl (Option.some.inj h).symm, fun n hn => ?_⟩
              rcases List.mem_append.1 hn with hn | hn
              · exact hct.names n hn
              · exact ⟨hp2 n hn, fun h => by cases h⟩
            have hb : (if isAbs false t = true then [] else (root.toList ++ ns ++ [s]).dropLast) ++ ((some ([] : List UInt8)).toList ++ names false t) ++ parts =
                (some ([] : List UInt8)).toList ++ (names false t ++ parts) := by
              rw [hab]; simp
            rw [hb, joinParts_eq hco2 (by simp)]
            refine .link (fun r h => (Option.some.inj h).symm) (fun _ => by simp) (by simp) hco2 ?_ (fun k r => ?_) hpos
            · intro n hn
              rcases List.mem_append.1 hn with hn | hn
              · exact hft.env n hn
              · exact hv2 n hn
            · rw [phys_link h2 h1 hfs, if_neg (by rw [hrt]; simp)]
              rfl

/-- The whole work on the parts. -/
theorem after_link {sys : Sys} {cwd : List (List UInt8)} (hag : Agrees sys fs cwd) {fl : Flags} (hfo : fl.follow = true) (hnp : fl.noParent = false) {again : List UInt8 → Res}
    {root : Option (List UInt8)} {ns : List (List UInt8)} (hr : ∀ r, root = some r → r = []) (hc : Comps false root ns) (hv : ∀ n ∈ ns, NoVar n) :
    (∃ out, afterParts false fl sys again (root.toList ++ ns) = .ok out ∧ Canon false out ∧ rootOf false out = root ∧ ∃ l, (∀ r, resolve false (r, cwd) out = (root.getD r, l)) ∧ Clear fs l ∧
      Phys fs 0 (startAt cwd root) ns l) ∨
    afterParts false fl sys again (root.toList ++ ns) = .err .sys ∨
    ∃ root' ns', afterParts false fl sys again (root.toList ++ ns) = again (render false root' ns') ∧ (∀ r, root' = some r → r = []) ∧ (root ≠ none → root' ≠ none) ∧ root'.toList ++ ns' ≠ [] ∧
      Comps false root' ns' ∧ (∀ n ∈ ns', NoVar n) ∧ (∀ k r, Phys fs k (startAt cwd root') ns' r ↔ Phys fs (k + 1) (startAt cwd root) ns r) ∧
      (∀ k r, Phys fs k (startAt cwd root) ns r → ∃ j, k = j + 1) := by
  have h0 : normLoop false fl true sys again (root.toList ++ ns) [] = normLoop false fl true sys again ns (root.toList ++ []) := by
    cases root with
    | none => rfl
    | some r =>
      have := hr r rfl
      subst this
      show normLoop false fl true sys again ([] :: ns) [] = _
      rw [normLoop, if_neg (by simp), if_pos (by simp), if_pos rfl]
      have : normLink false sys again ([] ++ [[]]) ns = some none := by
        rw [normLink, if_neg (by simp)]
        have : joinParts false ([] ++ [[]]) = some [47] := by decide
        rw [this]
        simp only [hag.root]
      rw [this]; rfl
  have hw0 : walk (startAt cwd root) [] = startAt cwd root := rfl
  have hcl : Clear fs (walk (startAt cwd root) []) := by
    rw [hw0, startAt]
    split
    · exact hag.here
    · intro m hm
      rw [List.prefix_nil.1 hm]
      exact hag.here _ (List.nil_prefix)
  have key := loop_link hag hnp (again := again) hr ns [] (fun n hn => (hc.names n hn).1) hv (by simp) ⟨0, [], rfl, fun _ => rfl, by simp⟩ hcl
  rw [hw0, ← h0] at key
  unfold afterParts
  rw [hfo]
  generalize normLoop false fl true sys again (root.toList ++ ns) [] = o at key
  cases key with
  | @done ns' hs hc' h =>
    left
    have hco := comps_shape (fun r h => Or.inl (hr r h)) hs
    obtain ⟨h5, h6⟩ := text_meaning hco
    refine ⟨text false root ns', text_join hco, ?_, h5, walk (startAt cwd root) ns', fun r => ?_, hc', h⟩
    · unfold text
      split
      · exact Or.inl rfl
      · rename_i he
        refine Or.inr ⟨root, ns', rfl, ?_, hco, hs⟩
        intro h7
        refine he ?_
        cases root with
        | none => exact ⟨rfl, h7⟩
        | some r => simp at h7
    · rw [resolve_place, h5]
      cases root <;> simp [place, h6, startAt]
  | sys => exact Or.inr (Or.inl rfl)
  | @link root' ns' hr' habs hne hc' hv' h hpos => exact Or.inr (Or.inr ⟨root', ns', rfl, hr', habs, hne, hc', hv', h, hpos⟩)

theorem toSep_false (p : List UInt8) : toSep false p = p := rfl

theorem useFlags_false (q : List UInt8) (fl : Flags) : useFlags false q fl = fl := by simp [useFlags]

/-- One call, for a path that nothing is put in front of. -/
theorem normInt_unix {sys : Sys} {n : Nat} {fl : Flags} {seen : List (List UInt8)} {p : List UInt8} (hh : fl.home = false) (ha : fl.absolute = true → rootOf false p ≠ none)
    (hp : p ≠ []) (hs : p ∉ seen) (hl : p.length < sys.pathMax) (hf : Fair false p) (hne : (rootOf false p).toList ++ names false p ≠ []) :
    normInt false sys (n + 1) fl seen p = afterParts false fl sys (normInt false sys n fl (p :: seen)) ((rootOf false p).toList ++ names false p) := by
  have := normInt_parts (sys := sys) (n := n) (fl := fl) (win := false) hp hs hl hf (by rw [toSep_false, unix_rest]; exact hne)
  rw [toSep_false, useFlags_false, unix_rest, hh] at this
  rw [this]
  simp only [Bool.false_eq_true, if_false]
  cases hfa : fl.absolute with
  | false => rfl
  | true =>
    cases hr : rootOf false p with
    | none => exact absurd hr (ha hfa)
    | some r =>
      have := unix_root hr
      subst this
      rfl

/-- What holds of a path that is worked on. -/
structure Ready (fl : Flags) (p : List UInt8) : Prop where
  ne : p ≠ []
  fair : Fair false p
  comps : (rootOf false p).toList ++ names false p ≠ []
  abs : fl.absolute = true → rootOf false p ≠ none

theorem ready_render {fl : Flags} {root : Option (List UInt8)} {ns : List (List UInt8)} (hr : ∀ r, root = some r → r = []) (hne : root.toList ++ ns ≠ []) (hc : Comps false root ns)
    (hv : ∀ n ∈ ns, NoVar n) (ha : fl.absolute = true → root ≠ none) : Ready fl (render false root ns) ∧ rootOf false (render false root ns) = root ∧ names false (render false root ns) = ns := by
  have h1 := root_render hc
  have h2 := rest_render hc
  rw [unix_rest] at h2
  refine ⟨⟨?_, render_fair hr hc hv, by rw [h1, h2]; exact hne, by rw [h1]; exact ha⟩, h1, h2⟩
  intro h3
  rw [h3] at h1 h2
  have h4 : rootOf false ([] : List UInt8) = none := by decide
  have h5 : names false ([] : List UInt8) = [] := by decide
  rw [← h1, ← h2, h4, h5] at hne
  exact hne rfl

theorem sound {sys : Sys} {cwd : List (List UInt8)} (hag : Agrees sys fs cwd) {fl : Flags} (hfo : fl.follow = true) (hnp : fl.noParent = false) (hh : fl.home = false) :
    ∀ (n : Nat) (seen : List (List UInt8)) (p : List UInt8), Ready fl p → ∀ out, normInt false sys n fl seen p = .ok out →
      Canon false out ∧ ∃ k l, k < n ∧ (fl.absolute = true → rootOf false out ≠ none) ∧ (resolve false ([], cwd) out = ([], l)) ∧ Clear fs l ∧ Phys fs k (startAt cwd (rootOf false p)) (names false p) l := by
  intro n
  induction n with
  | zero =>
    intro seen p hp out h
    rw [normInt, if_neg hp.ne] at h
    cases h
  | succ n ih =>
    intro seen p hp out h
    by_cases hs : p ∈ seen
    · rw [normInt, if_neg hp.ne] at h
      simp only at h
      rw [if_pos hs] at h; cases h
    · by_cases hl : p.length < sys.pathMax
      · rw [normInt_unix hh hp.abs hp.ne hs hl hp.fair hp.comps] at h
        have hc := toSep_fair_comps hp.fair
        rw [unix_rest] at hc
        rcases after_link hag hfo hnp (again := normInt false sys n fl (p :: seen)) (fun r h => unix_root h) hc hp.fair.env with
          ⟨o, h1, h2, h3, l, h4, h5, h6⟩ | h1 | ⟨root', ns', h1, hr', habs, hne, hc', hv', h2, _⟩
        · rw [h1] at h
          cases h
          refine ⟨h2, 0, l, by omega, fun h => by rw [h3]; exact hp.abs h, ?_, h5, h6⟩
          rw [h4]
          cases hr : rootOf false p with
          | none => rfl
          | some r => rw [unix_root hr]; rfl
        · rw [h1] at h; cases h
        · rw [h1] at h
          obtain ⟨hrd, e1, e2⟩ := ready_render hr' hne hc' hv' fun h => habs (hp.abs h)
          obtain ⟨h3, k, l, hkn, h4, h5, h6, h7⟩ := ih _ _ hrd out h
          rw [e1, e2] at h7
          exact ⟨h3, k + 1, l, by omega, h4, h5, h6, (h2 k l).1 h7⟩
      · rw [normInt, if_neg hp.ne] at h
        simp only at h
        rw [if_neg hs, normSep, if_pos (by omega)] at h
        cases h

theorem complete {sys : Sys} {cwd : List (List UInt8)} (hag : Agrees sys fs cwd) {fl : Flags} (hfo : fl.follow = true) (hnp : fl.noParent = false) (hh : fl.home = false) :
    ∀ (n : Nat) (seen : List (List UInt8)) (p : List UInt8) (k : Nat) (l : List (List UInt8)), Ready fl p → Phys fs k (startAt cwd (rootOf false p)) (names false p) l → k < n →
      (∀ q ∈ seen, ∀ k' l', Phys fs k' (startAt cwd (rootOf false q)) (names false q) l' → k < k') → (∀ q ∈ seen, ∃ k' l', Phys fs k' (startAt cwd (rootOf false q)) (names false q) l') →
      (∃ out, normInt false sys n fl seen p = .ok out) ∨ normInt false sys n fl seen p = .err .nametoolong ∨ normInt false sys n fl seen p = .err .sys := by
  intro n
  induction n with
  | zero => intro _ _ k _ _ _ h; omega
  | succ n ih =>
    intro seen p k l hp hph hk hseen hex
    have hs : p ∉ seen := by
      intro h
      have := hseen p h k l hph
      omega
    by_cases hl : p.length < sys.pathMax
    · rw [normInt_unix hh hp.abs hp.ne hs hl hp.fair hp.comps]
      have hc := toSep_fair_comps hp.fair
      rw [unix_rest] at hc
      rcases after_link hag hfo hnp (again := normInt false sys n fl (p :: seen)) (fun r h => unix_root h) hc hp.fair.env with
        ⟨o, h1, _⟩ | h1 | ⟨root', ns', h1, hr', habs, hne, hc', hv', h2, hpos⟩
      · exact Or.inl ⟨o, h1⟩
      · exact Or.inr (Or.inr h1)
      · rw [h1]
        obtain ⟨hrd, e1, e2⟩ := ready_render hr' hne hc' hv' fun h => habs (hp.abs h)
        obtain ⟨j, rfl⟩ := hpos k l hph
        refine ih _ _ j l hrd (by rw [e1, e2]; exact (h2 j l).2 hph) (by omega) ?_ ?_
        · intro q hq k' l' hq'
          rcases List.mem_cons.1 hq with rfl | hq
          · have := (phys_det hph hq').1; omega
          · have := hseen q hq k' l' hq'; omega
        · intro q hq
          rcases List.mem_cons.1 hq with rfl | hq
          · exact ⟨_, _, hph⟩
          · exact hex q hq
    · right; left
      rw [normInt, if_neg hp.ne]
      simp only
      rw [if_neg hs, normSep, if_pos (by omega)]

theorem unix_comps {p : List UInt8} (hp : p ≠ []) : (rootOf false p).toList ++ names false p ≠ [] := by
  cases p with
  | nil => exact absurd rfl hp
  | cons a t =>
    by_cases ha : a = 47
    · subst ha; simp [rootOf]
    · have : isSep false a = false := by simp [isSep, ha]
      intro h
      have h := (List.append_eq_nil_iff.1 h).2
      rw [names, pieces, if_neg (by rw [this]; decide)] at h
      cases hq : pieces (isSep false) t <;> rw [hq] at h <;> simp at h

/-! ### C80 -/

/-- C80: if following links succeeds, the result is the place where the path leads in the file system, is in normal form, has no link in it, and less
than 25 links were followed. -/
theorem follow_sound {sys : Sys} {cwd : List (List UInt8)} (hag : Agrees sys fs cwd) {fl : Flags} (hfo : fl.follow = true) (hnp : fl.noParent = false) (hh : fl.home = false) {p out : List UInt8}
    (hf : Fair false p) (ha : fl.absolute = true → rootOf false p ≠ none) (h : norm false sys fl p = .ok out) :
    Canon false out ∧ ∃ k l, k < 25 ∧ resolve false ([], cwd) out = ([], l) ∧ Clear fs l ∧ Phys fs k (startAt cwd (rootOf false p)) (names false p) l := by
  have hp : p ≠ [] := by rintro rfl; rw [norm, normInt, if_pos rfl] at h; cases h
  have hrd : Ready fl p := ⟨hp, hf, unix_comps hp, ha⟩
  obtain ⟨h1, k, l, h0, _, h2, h3, h4⟩ := sound hag hfo hnp hh 25 [] p hrd out h
  exact ⟨h1, k, l, h0, h2, h3, h4⟩

/-- C80: a path that leads somewhere over less than 25 links is resolved, unless a text gets too long or the system gives an error. -/
theorem follow_complete {sys : Sys} {cwd : List (List UInt8)} (hag : Agrees sys fs cwd) {fl : Flags} (hfo : fl.follow = true) (hnp : fl.noParent = false) (hh : fl.home = false) {p : List UInt8}
    (hp : p ≠ []) (hf : Fair false p) (ha : fl.absolute = true → rootOf false p ≠ none) {k : Nat} {l : List (List UInt8)} (hk : k < 25)
    (h : Phys fs k (startAt cwd (rootOf false p)) (names false p) l) :
    (∃ out, norm false sys fl p = .ok out ∧ resolve false ([], cwd) out = ([], l)) ∨ norm false sys fl p = .err .nametoolong ∨ norm false sys fl p = .err .sys := by
  have hrd : Ready fl p := ⟨hp, hf, unix_comps hp, ha⟩
  rcases complete hag hfo hnp hh 25 [] p k l hrd h hk (by simp) (by simp) with ⟨out, h1⟩ | h1 | h1
  · obtain ⟨_, k', l', _, h2, _, h3⟩ := follow_sound hag hfo hnp hh hf ha h1
    have := (phys_det h h3).2
    subst this
    exact Or.inl ⟨out, h1, h2⟩
  · exact Or.inr (Or.inl h1)
  · exact Or.inr (Or.inr h1)

/-- C80: links that lead nowhere, such as those that lead back to themselves, never give a result. -/
theorem follow_loop {sys : Sys} {cwd : List (List UInt8)} (hag : Agrees sys fs cwd) {fl : Flags} (hfo : fl.follow = true) (hnp : fl.noParent = false) (hh : fl.home = false) {p : List UInt8}
    (hf : Fair false p) (ha : fl.absolute = true → rootOf false p ≠ none) (hno : ∀ k l, ¬ Phys fs k (startAt cwd (rootOf false p)) (names false p) l) (out : List UInt8) :
    norm false sys fl p ≠ .ok out := by
  intro h
  obtain ⟨_, k, l, _, _, _, h1⟩ := follow_sound hag hfo hnp hh hf ha h
  exact hno k l h1

/-- C80: the same for a relative path that is to be made absolute. -/
theorem follow_absolute {sys : Sys} {cwd : List (List UInt8)} (hag : Agrees sys fs cwd) {fl : Flags} (hfo : fl.follow = true) (hnp : fl.noParent = false) (hh : fl.home = false) {p out : List UInt8}
    (hf : Fair false p) (ha : fl.absolute = true) (hr : rootOf false p = none) (hcwd : sys.cwd = some (render false (some []) cwd)) (hsh : Shape false (some []) cwd) (hvc : ∀ n ∈ cwd, NoVar n)
    (h : norm false sys fl p = .ok out) :
    Canon false out ∧ rootOf false out = some [] ∧ ∃ k l, k < 25 ∧ resolve false ([], cwd) out = ([], l) ∧ Clear fs l ∧ Phys fs k cwd (names false p) l := by
  have hp : p ≠ [] := by rintro rfl; rw [norm, normInt, if_pos rfl] at h; cases h
  have hcc : Comps false (some []) cwd := comps_shape (fun r h => Or.inl (Option.some.inj h).symm) hsh
  have hfc := render_fair (fun r h => (Option.some.inj h).symm) hcc hvc
  have hcp := toSep_fair_comps hf
  rw [unix_rest] at hcp
  have hco : Comps false (some []) (cwd ++ names false p) := by
    refine ⟨hcc.root, fun n hn => ?_⟩
    rcases List.mem_append.1 hn with hn | hn
    · exact hcc.names n hn
    · exact hcp.names n hn
  have hv : ∀ n ∈ cwd ++ names false p, NoVar n := by
    intro n hn
    rcases List.mem_append.1 hn with hn | hn
    · exact hvc n hn
    · exact hf.env n hn
  have hwalk : walk [] cwd = cwd := by
    obtain ⟨k, ps, e, hk, hps⟩ := hsh
    have := hk (by simp)
    subst this
    simp only [List.replicate_zero, List.nil_append] at e
    subst e
    have plain : ∀ (ps l : List (List UInt8)), (∀ n ∈ ps, Plain false n) → walk l ps = l ++ ps := by
      intro ps
      induction ps with
      | nil => intro l _; simp [walk]
      | cons n ps ih =>
        intro l h
        have hn := h n (by simp)
        show walk (step l n) ps = _
        rw [ih _ fun x hx => h x (by simp [hx])]
        simp [step, hn.dot, hn.dots]
    exact plain _ [] hps
  have hcl : Clear fs (walk [] cwd) := by rw [hwalk]; exact hag.here
  have hph : ∀ k r, Phys fs k (startAt cwd (some [])) (cwd ++ names false p) r ↔ Phys fs k cwd (names false p) r := by
    intro k r
    have := phys_shape hsh hcl k (names false p) r
    rw [hwalk] at this
    exact this
  have key : norm false sys fl p = if p.length < sys.pathMax then
      afterParts false fl sys (normInt false sys 24 fl [p]) ((some ([] : List UInt8)).toList ++ (cwd ++ names false p)) else .err .nametoolong := by
    by_cases hl : p.length < sys.pathMax
    · rw [if_pos hl]
      have := normInt_parts (sys := sys) (n := 24) (fl := fl) (win := false) (seen := []) hp (by simp) hl hf (by rw [toSep_false, unix_rest]; exact unix_comps hp)
      rw [toSep_false, useFlags_false, unix_rest, hh, ha, hr] at this
      simp only [Bool.false_eq_true, if_false] at this
      rw [norm]
      refine this.trans ?_
      have hnames : names false p ≠ [] := by
        have := unix_comps hp
        rw [hr] at this
        exact this
      have hna : normAbs false sys.cwd ((none : Option (List UInt8)).toList ++ names false p) = some (some ((some ([] : List UInt8)).toList ++ (cwd ++ names false p))) := by
        cases hq : names false p with
        | nil => exact absurd hq hnames
        | cons a q =>
          have ha0 : a ≠ [] := (hcp.names a (by rw [hq]; simp)).1.ne
          rw [Option.toList_none, List.nil_append]
          unfold normAbs
          simp only
          rw [if_neg (by simp [ha0]), hcwd]
          simp only
          rw [componentize_eq hfc.zero hfc.back, root_render hcc, rest_render hcc]
          simp
      rw [hna]
      simp only [if_true]
    · rw [if_neg hl, norm, normInt, if_neg hp]
      simp only
      rw [if_neg (by simp), normSep, if_pos (by omega)]
  rw [key] at h
  split at h
  · rcases after_link hag hfo hnp (again := normInt false sys 24 fl [p]) (fun r h => (Option.some.inj h).symm) hco hv with
      ⟨o, h1, h2, h3, l, h4, h5, h6⟩ | h1 | ⟨root', ns', h1, hr', habs, hne, hc', hv', h2, _⟩
    · rw [h1] at h
      cases h
      exact ⟨h2, h3, 0, l, by omega, h4 [], h5, (hph _ _).1 h6⟩
    · rw [h1] at h; cases h
    · rw [h1] at h
      obtain ⟨hrd, e1, e2⟩ := ready_render (fl := fl) hr' hne hc' hv' fun _ => habs (by simp)
      obtain ⟨h3, k, l, hk, h4, h5, h6, h7⟩ := sound hag hfo hnp hh 24 _ _ hrd out h
      rw [e1, e2] at h7
      refine ⟨h3, ?_, k + 1, l, by omega, h5, h6, (hph _ _).1 ((h2 k l).1 h7)⟩
      cases hro : rootOf false out with
      | none => exact absurd hro (h4 ha)
      | some r => rw [unix_root hro]
  · cases h

/-! ### The hypotheses can be met -/

/-- A system that reads links as `fs` says. -/
def sysOf (fs : List (List UInt8) → Option (List UInt8)) (cwd : List (List UInt8)) : Sys where
  env := fun _ => none
  home := none
  cwd := some (render false (some []) cwd)
  readlink := fun p _ => match fs (resolve false ([], cwd) p).2 with
    | none => .none
    | some t => .to t
  pathMax := 4096

theorem sysOf_agrees {cwd : List (List UInt8)} (hc : Clear fs cwd) (hf : ∀ l t, fs l = some t → Fair false t ∧ t ≠ []) : Agrees (sysOf fs cwd) fs cwd := by
  have key : ∀ root ns n, (∀ r : List UInt8, root = some r → r = []) → Shape false root (ns ++ [n]) → Plain false n →
      (resolve false ([], cwd) (render false root (ns ++ [n]))).2 = walk (startAt cwd root) ns ++ [n] := by
    intro root ns n hr hs hn
    have hco := comps_shape (fun r h => Or.inl (hr r h)) hs
    rw [resolve_place, root_render hco, rest_render hco]
    cases root <;> simp [place, startAt, walk_append, walk_plain hn]
  refine ⟨fun last => ?_, hc, hf, fun root ns n last hr hs hn hcl h => ?_, fun root ns n last t hr hs hn hcl h => ?_⟩
  · have : (resolve false ([], cwd) [47]).2 = [] := by
      rw [resolve_place]; rfl
    simp only [sysOf, this, hc _ List.nil_prefix]
  · simp only [sysOf, key root ns n hr hs hn] at h
    cases hx : fs (walk (startAt cwd root) ns ++ [n]) with
    | none => rfl
    | some t => rw [hx] at h; cases h
  · simp only [sysOf, key root ns n hr hs hn] at h
    cases hx : fs (walk (startAt cwd root) ns ++ [n]) with
    | none => rw [hx] at h; cases h
    | some t' => rw [hx] at h; cases h; rfl

/-- In `/w` there are the links `a` to `../b/c`, and in `/b` the link `c` to `/d`; `/x` and `/y` lead to each other. -/
def fs0 (l : List (List UInt8)) : Option (List UInt8) :=
  if l = [[119], [97]] then some [46, 46, 47, 98, 47, 99] else if l = [[98], [99]] then some [47, 100] else if l = [[120]] then some [121] else if l = [[121]] then some [47, 120] else none

theorem fs0_agrees : Agrees (sysOf fs0 [[119]]) fs0 [[119]] := by
  refine sysOf_agrees ?_ ?_
  · intro m hm
    rcases List.prefix_cons_iff.1 hm with rfl | ⟨t, rfl, ht⟩
    · decide
    · rw [List.prefix_nil.1 ht]; decide
  · intro l t h
    unfold fs0 at h
    split at h
    · cases h; exact ⟨⟨by decide, by decide, by decide, by decide⟩, by decide⟩
    · split at h
      · cases h; exact ⟨⟨by decide, by decide, by decide, by decide⟩, by decide⟩
      · split at h
        · cases h; exact ⟨⟨by decide, by decide, by decide, by decide⟩, by decide⟩
        · split at h
          · cases h; exact ⟨⟨by decide, by decide, by decide, by decide⟩, by decide⟩
          · cases h

example : norm false (sysOf fs0 [[119]]) ⟨true, true, false, false⟩ [97, 47, 46, 46, 47, 101] = .ok [47, 101] ∧ Shape false (some []) [[119]] :=
  ⟨by decide +kernel, 0, [[119]], rfl, fun _ => rfl, by
    intro n hn
    rw [List.mem_singleton.1 hn]
    exact ⟨⟨by decide, by decide, by decide, by decide⟩, by decide, by decide, by decide⟩⟩

/-- `a/../e` is `/e`, as `a` leads to `/d`; without following links it would be `e`. -/
example : norm false (sysOf fs0 [[119]]) ⟨false, true, false, false⟩ [97, 47, 46, 46, 47, 101] = .ok [47, 101] := by decide +kernel
example : norm false (sysOf fs0 [[119]]) ⟨false, false, false, false⟩ [97, 47, 46, 46, 47, 101] = .ok [101] := by decide +kernel
example : norm false (sysOf fs0 [[119]]) ⟨false, true, false, false⟩ [47, 120, 47, 101] = .err .linkLoop := by decide +kernel
example : Fair false [97, 47, 46, 46, 47, 101] := ⟨by decide, by decide, by decide, by decide⟩
example : Phys fs0 2 [[119]] [[97], [46, 46], [101]] [[101]] :=
  .link (by decide) (by decide) (t := [46, 46, 47, 98, 47, 99]) (by decide) (.up rfl (.plain (by decide) (by decide) (by decide) (.link (by decide) (by decide) (t := [47, 100]) (by decide)
    (.plain (by decide) (by decide) (by decide) (.up rfl (.plain (by decide) (by decide) (by decide) (.nil _)))))))

end Verif.FsPath
