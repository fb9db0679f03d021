import Verif.HashMulti.Spec
/-! Lemmas for `Verif.HashMulti.Props`. -/
namespace Verif.HashMulti

theorem get_nil {α : Type} (k : Key) : get ([] : Assoc α) k = none := rfl

theorem get_cons {α : Type} (e : Key × α) (l : Assoc α) (k : Key) :
    get (e :: l) k = if e.1 = k then some e.2 else get l k := by
  unfold get
  by_cases h : e.1 = k <;> simp [h]

theorem get_del {α : Type} (l : Assoc α) (k k' : Key) : get (del l k) k' = if k' = k then none else get l k' := by
  induction l with
  | nil => simp [del, get_nil]
  | cons e l ih =>
    unfold del at ih ⊢
    by_cases he : e.1 = k
    · rw [List.filter_cons_of_neg (by simp [he]), ih, get_cons]
      by_cases hk : k' = k
      · simp [hk]
      · rw [if_neg hk, if_neg hk, if_neg (by rw [he]; exact fun h => hk h.symm)]
    · rw [List.filter_cons_of_pos (by simp [he]), get_cons, ih, get_cons]
      by_cases hk : k' = k
      · rw [hk, if_neg he]; simp
      · simp [hk]

theorem get_append {α : Type} (l : Assoc α) (k k' : Key) (v : α) :
    get (l ++ [(k, v)]) k' = match get l k' with | some x => some x | none => if k' = k then some v else none := by
  induction l with
  | nil => simp [get_cons, get_nil, eq_comm]
  | cons e l ih =>
    rw [List.cons_append, get_cons, get_cons, ih]
    by_cases he : e.1 = k' <;> simp [he]

theorem get_put {α : Type} (l : Assoc α) (k k' : Key) (v : α) :
    get (put l k v) k' = if k' = k then some v else get l k' := by
  unfold put
  rw [get_append, get_del]
  by_cases hk : k' = k
  · simp [hk]
  · simp only [if_neg hk]
    cases get l k' <;> rfl

theorem del_keys {α : Type} (l : Assoc α) (k : Key) (e : Key × α) (h : e ∈ del l k) : e.1 ≠ k ∧ e ∈ l := by
  unfold del at h
  rw [List.mem_filter] at h
  exact ⟨by simpa using h.2, h.1⟩

def Nd {α : Type} (l : Assoc α) : Prop := (l.map (·.1)).Nodup

theorem nd_del {α : Type} {l : Assoc α} (k : Key) (h : Nd l) : Nd (del l k) := by
  unfold Nd del at *
  exact List.Nodup.sublist (List.Sublist.map _ List.filter_sublist) h

theorem nd_put {α : Type} {l : Assoc α} (k : Key) (v : α) (h : Nd l) : Nd (put l k v) := by
  unfold put Nd
  rw [List.map_append, List.nodup_append]
  refine ⟨nd_del k h, by simp, ?_⟩
  intro a ha b hb
  simp only [List.map_cons, List.map_nil, List.mem_singleton] at hb
  obtain ⟨e, he, rfl⟩ := List.mem_map.1 ha
  rw [hb]
  exact (del_keys l k e he).1

theorem get_none {α : Type} {l : Assoc α} {k : Key} (h : get l k = none) : ∀ e ∈ l, e.1 ≠ k := by
  induction l with
  | nil => simp
  | cons e l ih =>
    rw [get_cons] at h
    split at h
    · exact absurd h (by simp)
    · rename_i hne
      intro e' he'
      rcases List.mem_cons.1 he' with rfl | h'
      · exact hne
      · exact ih h e' h'

theorem del_fresh {α : Type} {l : Assoc α} {k : Key} (h : get l k = none) : del l k = l := by
  unfold del
  rw [List.filter_eq_self]
  intro e he
  simpa using get_none h e he

/-- The sum of a weight over a table. -/
def W {α : Type} (w : Key × α → Nat) (l : Assoc α) : Nat := (l.map w).sum

theorem W_congr {α : Type} {w w' : Key × α → Nat} {l : Assoc α} (h : ∀ e ∈ l, w e = w' e) : W w l = W w' l := by
  unfold W
  rw [List.map_congr_left h]

theorem W_del {α : Type} (w : Key × α → Nat) {l : Assoc α} (k : Key) (h : Nd l) :
    W w l = W w (del l k) + (match get l k with | some o => w (k, o) | none => 0) := by
  induction l with
  | nil => rfl
  | cons e l ih =>
    have hl : Nd l := (List.nodup_cons.1 h).2
    have hn := (List.nodup_cons.1 h).1
    specialize ih hl
    obtain ⟨ek, eo⟩ := e
    rw [get_cons]
    by_cases he : ek = k
    · subst he
      have hg : get l ek = none := by
        cases hg : get l ek with
        | none => rfl
        | some o =>
          exfalso
          unfold get at hg
          rw [Option.map_eq_some_iff] at hg
          obtain ⟨x, hx, -⟩ := hg
          have := List.find?_some hx
          have hm := List.mem_of_find?_eq_some hx
          apply hn
          simp only [beq_iff_eq] at this
          show ek ∈ _
          rw [← this]
          exact List.mem_map_of_mem hm
      have hd : del ((ek, eo) :: l) ek = l := by
        have h1 := del_fresh hg
        unfold del at h1 ⊢
        rw [List.filter_cons_of_neg (by simp), h1]
      rw [hd]
      simp [W, Nat.add_comm]
    · have hd : del ((ek, eo) :: l) k = (ek, eo) :: del l k := by
        unfold del
        rw [List.filter_cons_of_pos (by simp [he])]
      rw [hd, if_neg he]
      unfold W at *
      rw [List.map_cons, List.sum_cons, List.map_cons, List.sum_cons]
      omega

theorem W_append {α : Type} (w : Key × α → Nat) (l : Assoc α) (e : Key × α) : W w (l ++ [e]) = W w l + w e := by
  simp [W]

/-- The pointer that destroying a table releases for an entry. -/
def liveOf (d : Assoc Nat) (e : Key × Option Obj) : List (Nat × UInt64) :=
  match e.2 with
  | some ⟨.vp, _, .word p⟩ => (match get d e.1 with | some f => [(f, p)] | none => [])
  | _ => []

def wLive (d : Assoc Nat) (c : Nat × UInt64) (e : Key × Option Obj) : Nat := (liveOf d e).count c

def wObj (e : Key × Option Obj) : Nat := if e.2.isSome then 1 else 0

theorem destroyObj_eq (h : H) (k : Key) (d : Assoc Nat) (o : Option Obj) :
    destroyObj h o (get d k)
      = { h with calls := h.calls ++ liveOf d (k, o), frees := h.frees + wObj (k, o) } := by
  rcases o with _ | ⟨ty, len, data⟩
  · simp [destroyObj, liveOf, wObj]
  · unfold destroyObj liveOf wObj
    cases ty <;> cases data <;> cases hg : get d k <;> simp [objVp]

theorem destroyObj_none (h : H) (o : Option Obj) :
    destroyObj h o none = { h with frees := h.frees + (if o.isSome then 1 else 0) } := by
  rcases o with _ | ⟨ty, len, data⟩
  · simp [destroyObj]
  · unfold destroyObj
    cases ty <;> cases data <;> simp [objVp]

theorem destroy_fold (d : Assoc Nat) (t : Assoc (Option Obj)) (h : H) :
    t.foldl (fun h' e => destroyObj h' e.2 (get d e.1)) h
      = { h with calls := h.calls ++ t.flatMap (liveOf d), frees := h.frees + W wObj t } := by
  induction t generalizing h with
  | nil => simp [W]
  | cons e t ih =>
    rw [List.foldl_cons, ih, destroyObj_eq]
    simp [W, Nat.add_assoc]

theorem count_live (d : Assoc Nat) (t : Assoc (Option Obj)) (c : Nat × UInt64) :
    (t.flatMap (liveOf d)).count c = W (wLive d c) t := by
  induction t with
  | nil => rfl
  | cons e t ih =>
    rw [List.flatMap_cons, List.count_append, ih]
    simp [W, wLive]

/-- An object holds a value.  With `nul`, NULL stands for binary data. -/
def Enc (nul : Bool) (o : Option Obj) : Val → Prop
  | .bool b => o = some ⟨.bool, 1, .flag b⟩
  | .int u => o = some ⟨.int, 8, .word u⟩
  | .str s => o = some ⟨.str, s.length + 1, .bytes (s ++ [0])⟩
  | .bin l => o = some ⟨.bin, l.length, .bytes l⟩ ∨ (nul = true ∧ o = none)
  | .vp p _ => o = some ⟨.vp, 8, .word p⟩

def Rel (nul : Bool) : Option (Option Obj) → Option Val → Prop
  | none, none => True
  | some o, some v => Enc nul o v
  | _, _ => False

def freeOf : Option Val → Option Nat
  | some (.vp _ f) => f
  | _ => none

structure Inv (nul : Bool) (h : H) (s : S) (g : List (Nat × UInt64)) (lk : Nat) : Prop where
  rel : ∀ k, Rel nul (get h.t k) (s.m k)
  fr : ∀ k, get h.d k = freeOf (s.m k)
  calls : h.calls = s.freed
  nd : Nd h.t
  us : ∀ k, s.m k ≠ none → usable k
  cons : ∀ c, g.count c = h.calls.count c + s.handed.count c + W (wLive h.d c) h.t
  mem : h.allocs = h.frees + W wObj h.t + lk

def S.drop (s : S) (k : Key) (d : Bool) : S :=
  { m := fun k' => if k' = k then none else s.m k'
    freed := if d then s.freed ++ owned (s.m k) else s.freed
    handed := if d then s.handed else s.handed ++ owned (s.m k) }

theorem liveOf_enc {nul : Bool} {o : Option Obj} {v : Val} (d : Assoc Nat) (k : Key) (he : Enc nul o v)
    (hf : get d k = freeOf (some v)) : liveOf d (k, o) = owned (some v) := by
  cases v with
  | vp p f => cases he; unfold liveOf; simp only [hf, freeOf]; cases f <;> rfl
  | bin l =>
    rcases he with rfl | ⟨-, rfl⟩ <;> rfl
  | _ => cases he; rfl

theorem drop_none {s : S} {k : Key} (d : Bool) (h : s.m k = none) : s.drop k d = s := by
  unfold S.drop
  have : (fun k' => if k' = k then none else s.m k') = s.m := by
    funext k'
    by_cases hk : k' = k <;> simp [hk, h]
  rw [this, h]
  cases d <;> simp [owned]

theorem remove_inv {nul : Bool} {h : H} {s : S} {g : List (Nat × UInt64)} {lk : Nat} (hi : Inv nul h s g lk) (k : Key) (d : Bool) :
    Inv nul (remove h k d).2 (s.drop k d) g lk ∧ (remove h k d).1 = (s.m k).isSome := by
  have hr := hi.rel k
  unfold remove
  cases hg : get h.t k with
  | none =>
    rw [hg] at hr
    cases hm : s.m k with
    | none => rw [drop_none d hm]; exact ⟨hi, rfl⟩
    | some v => rw [hm] at hr; exact absurd hr (by simp [Rel])
  | some o =>
    rw [hg] at hr
    cases hm : s.m k with
    | none => rw [hm] at hr; exact absurd hr (by simp [Rel])
    | some v =>
      rw [hm] at hr
      have hf := hi.fr k
      rw [hm] at hf
      have hlo := liveOf_enc h.d k hr hf
      have hh : destroyObj h o (if d then get h.d k else none)
          = { h with calls := h.calls ++ (if d then owned (some v) else []), frees := h.frees + wObj (k, o) } := by
        cases d with
        | true => rw [if_pos rfl, destroyObj_eq, hlo, if_pos rfl]
        | false => simp [destroyObj_none, wObj]
      simp only [hh]
      refine ⟨⟨?_, ?_, ?_, ?_, ?_, ?_, ?_⟩, by simp⟩
      · intro k'
        simp only [get_del, S.drop]
        by_cases hk : k' = k
        · simp [hk, Rel]
        · simpa [hk] using hi.rel k'
      · intro k'
        simp only [get_del, S.drop]
        by_cases hk : k' = k
        · simp [hk, freeOf]
        · simpa [hk] using hi.fr k'
      · simp only [S.drop, hm, hi.calls]
        cases d <;> simp
      · exact nd_del k hi.nd
      · intro k' hk'
        simp only [S.drop] at hk'
        by_cases hk : k' = k
        · simp [hk] at hk'
        · exact hi.us k' (by simpa [hk] using hk')
      · intro c
        have h1 := hi.cons c
        have h2 := W_del (wLive h.d c) k hi.nd
        rw [hg] at h2
        have h3 : W (wLive (del h.d k) c) (del h.t k) = W (wLive h.d c) (del h.t k) := by
          apply W_congr
          intro e he
          unfold wLive liveOf
          rw [get_del, if_neg (del_keys _ _ _ he).1]
        simp only [wLive, hlo] at h2
        simp only [S.drop, hm]
        rw [h3]
        cases d <;> simp only [if_true, List.count_append, List.append_nil, Bool.false_eq_true, if_false] <;>
          (try simp only [wLive] at *) <;> omega
      · have h2 := W_del wObj k hi.nd
        rw [hg] at h2
        have := hi.mem
        simp only at h2 ⊢
        omega

theorem store_inv {nul : Bool} {h : H} {s : S} {g : List (Nat × UInt64)} {lk : Nat} (hi : Inv nul h s g lk) {k : Key} (hk : s.m k = none)
    (hu : usable k) {o : Option Obj} {v : Val} (he : Enc nul o v) :
    Inv nul { h with t := put h.t k o, d := (match freeOf (some v) with | none => h.d | some f => put h.d k f),
                     allocs := h.allocs + wObj (k, o) }
      { s with m := fun k' => if k' = k then some v else s.m k' } (g ++ owned (some v)) lk := by
  have hg : get h.t k = none := by
    have := hi.rel k
    rw [hk] at this
    cases hg : get h.t k with
    | none => rfl
    | some o => rw [hg] at this; exact absurd this (by simp [Rel])
  have hd : get h.d k = none := by rw [hi.fr k, hk]; rfl
  have hdf : ∀ k', get (match freeOf (some v) with | none => h.d | some f => put h.d k f) k'
      = if k' = k then freeOf (some v) else get h.d k' := by
    intro k'
    cases hf : freeOf (some v) with
    | none =>
      by_cases hk' : k' = k
      · simp [hk', hd]
      · simp [hk']
    | some f => simp only [get_put]
  refine ⟨?_, ?_, hi.calls, nd_put k o hi.nd, ?_, ?_, ?_⟩
  · intro k'
    simp only [get_put]
    by_cases hk' : k' = k
    · simpa [hk', Rel] using he
    · simpa [hk'] using hi.rel k'
  · intro k'
    simp only [hdf]
    by_cases hk' : k' = k
    · simp [hk']
    · simpa [hk'] using hi.fr k'
  · intro k' hk'
    by_cases h' : k' = k
    · rw [h']; exact hu
    · simp only [if_neg h'] at hk'; exact hi.us k' hk'
  · intro c
    simp only [put, del_fresh hg, W_append, List.count_append]
    have h1 := hi.cons c
    have h3 : W (wLive (match freeOf (some v) with | none => h.d | some f => put h.d k f) c) h.t = W (wLive h.d c) h.t := by
      apply W_congr
      intro e hm
      unfold wLive liveOf
      rw [hdf, if_neg (get_none hg e hm)]
    have h4 : wLive (match freeOf (some v) with | none => h.d | some f => put h.d k f) c (k, o) = (owned (some v)).count c := by
      unfold wLive
      rw [liveOf_enc _ _ he (by rw [hdf, if_pos rfl])]
    simp only [put] at h3 h4
    rw [h3, h4]
    omega
  · simp only [put, del_fresh hg, W_append]
    have := hi.mem
    omega

theorem valid_iff (k : Key) : k.valid = true ↔ usable k := by
  cases k with
  | int _ => simp [Key.valid, usable]
  | str s => cases s <;> simp [Key.valid, usable]

theorem fold_eq (fold : List UInt8 → List UInt8) (k : Key) : k.fold fold = sameKey fold k := by cases k <;> rfl

theorem set_drop (s : S) (k : Key) (v : Val) :
    s.set k v = { s.drop k true with m := fun k' => if k' = k then some v else (s.drop k true).m k' } := by
  unfold S.set S.drop
  congr 1
  · funext k'
    by_cases h : k' = k <;> simp [h]

def Ok (nul : Bool) : Op → Prop
  | .bin _ v => nul = true ∨ v ≠ none
  | _ => True

def givenBy (fold : List UInt8 → List UInt8) : Op → List (Nat × UInt64)
  | .vp k p (some f) => if p ≠ 0 ∧ usable (sameKey fold k) then [(f, p)] else []
  | _ => []

theorem drop_at (s : S) (k : Key) (d : Bool) : (s.drop k d).m k = none := by simp [S.drop]

theorem no_unusable {nul : Bool} {h : H} {s : S} {g : List (Nat × UInt64)} {lk : Nat} (hi : Inv nul h s g lk) {k : Key}
    (hu : ¬ usable k) : s.m k = none := by
  cases hm : s.m k with
  | none => rfl
  | some v => exact absurd (hi.us k (by simp [hm])) hu

theorem step_inv {nul : Bool} {h : H} {s : S} {g : List (Nat × UInt64)} {lk : Nat} (hi : Inv nul h s g lk)
    (fold : List UInt8 → List UInt8) (o : Op) (ho : Ok nul o) :
    Inv nul (step fold h o).2 (s.step fold o).2 (g ++ givenBy fold o) (lk + if wasted fold o then 1 else 0)
      ∧ (step fold h o).1 = (s.step fold o).1 := by
  have hrem := fun k => remove_inv hi k true
  cases o with
  | bool k b =>
    simp only [step, S.step, fold_eq, insBool, givenBy, wasted, List.append_nil]
    by_cases hu : usable (sameKey fold k)
    · have hv := (valid_iff _).2 hu
      have := store_inv (hrem (sameKey fold k)).1 (drop_at _ _ _) hu (o := some ⟨.bool, 1, .flag b⟩) (v := .bool b) rfl
      simp only [hv, create, store, if_pos hu, set_drop] at *
      simp only [owned, freeOf, List.append_nil] at this
      exact ⟨by simpa [wObj] using this, by simp⟩
    · have hv : (sameKey fold k).valid = false := by
        cases hv : (sameKey fold k).valid with
        | false => rfl
        | true => exact absurd ((valid_iff _).1 hv) hu
      simp only [hv, if_neg hu]
      exact ⟨by simpa using hi, by simp⟩
  | int k u =>
    simp only [step, S.step, fold_eq, insInt, givenBy, wasted, List.append_nil]
    by_cases hu : usable (sameKey fold k)
    · have hv := (valid_iff _).2 hu
      have := store_inv (hrem (sameKey fold k)).1 (drop_at _ _ _) hu (o := some ⟨.int, 8, .word u⟩) (v := .int u) rfl
      simp only [hv, create, store, if_pos hu, set_drop] at *
      simp only [owned, freeOf, List.append_nil] at this
      exact ⟨by simpa [wObj] using this, by simp⟩
    · have hv : (sameKey fold k).valid = false := by
        cases hv : (sameKey fold k).valid with
        | false => rfl
        | true => exact absurd ((valid_iff _).1 hv) hu
      simp only [hv, if_neg hu]
      exact ⟨by simpa using hi, by simp⟩
  | str k v =>
    simp only [step, S.step, fold_eq, insStr, givenBy, wasted, List.append_nil]
    by_cases hu : usable (sameKey fold k)
    · have hv := (valid_iff _).2 hu
      have := store_inv (hrem (sameKey fold k)).1 (drop_at _ _ _) hu (o := some ⟨.str, v.length + 1, .bytes (v ++ [0])⟩) (v := .str v) rfl
      simp only [hv, create, store, if_pos hu, set_drop] at *
      simp only [owned, freeOf, List.append_nil] at this
      exact ⟨by simpa [wObj] using this, by simp⟩
    · have hv : (sameKey fold k).valid = false := by
        cases hv : (sameKey fold k).valid with
        | false => rfl
        | true => exact absurd ((valid_iff _).1 hv) hu
      simp only [hv, if_neg hu]
      exact ⟨by simpa using hi, by simp⟩
  | bin k v =>
    simp only [step, S.step, fold_eq, insBin, givenBy, List.append_nil]
    by_cases hu : usable (sameKey fold k)
    · have hv := (valid_iff _).2 hu
      cases v with
      | none =>
        have hn : nul = true := by
          rcases ho with h | h
          · exact h
          · exact absurd rfl h
        have := store_inv (hrem (sameKey fold k)).1 (drop_at _ _ _) hu (o := none) (v := .bin []) (Or.inr ⟨hn, rfl⟩)
        simp only [hv, create, store, if_pos hu, set_drop, Option.map_none] at *
        simp only [owned, freeOf, List.append_nil] at this
        exact ⟨by simpa [wasted, wObj] using this, by simp⟩
      | some l =>
        have := store_inv (hrem (sameKey fold k)).1 (drop_at _ _ _) hu (o := some ⟨.bin, l.length, .bytes l⟩) (v := .bin l) (Or.inl rfl)
        simp only [hv, create, store, if_pos hu, set_drop, Option.map_some] at *
        simp only [owned, freeOf, List.append_nil] at this
        exact ⟨by simpa [wasted, hu, wObj] using this, by simp⟩
    · have hv : (sameKey fold k).valid = false := by
        cases hv : (sameKey fold k).valid with
        | false => rfl
        | true => exact absurd ((valid_iff _).1 hv) hu
      have hm := no_unusable hi hu
      have hri := (hrem (sameKey fold k)).1
      rw [drop_none true hm] at hri
      cases v with
      | none =>
        simp only [create, store, hv, if_neg hu, Option.map_none]
        exact ⟨by simpa [wasted] using hri, by simp⟩
      | some l =>
        simp only [create, store, hv, if_neg hu, Option.map_some, wasted]
        refine ⟨⟨hri.rel, hri.fr, hri.calls, hri.nd, hri.us, hri.cons, ?_⟩, by simp⟩
        have := hri.mem
        simp [hu]
        omega
  | vp k p f =>
    simp only [step, S.step, fold_eq, insVp]
    by_cases hp : p = 0
    · rw [if_pos hp, if_neg (by simp [hp])]
      refine ⟨?_, rfl⟩
      have e1 : givenBy fold (.vp k p f) = [] := by cases f <;> simp [givenBy, hp]
      have e2 : wasted fold (.vp k p f) = false := by simp [wasted, hp]
      rw [e1, e2]
      simpa using hi
    · rw [if_neg hp]
      by_cases hu : usable (sameKey fold k)
      · have hv := (valid_iff _).2 hu
        have := store_inv (hrem (sameKey fold k)).1 (drop_at _ _ _) hu (o := some ⟨.vp, 8, .word p⟩) (v := .vp p f) rfl
        have e1 : givenBy fold (.vp k p f) = owned (some (.vp p f)) := by cases f <;> simp [givenBy, hp, hu, owned]
        have e2 : wasted fold (.vp k p f) = false := by simp [wasted, hu]
        rw [e1, e2]
        simp only [hv, create, store, set_drop, if_pos (show p ≠ 0 ∧ usable (sameKey fold k) from ⟨hp, hu⟩), if_true]
        refine ⟨?_, trivial⟩
        cases f with
        | none => simpa [freeOf, wObj] using this
        | some f => simpa [freeOf, wObj] using this
      · have hv : (sameKey fold k).valid = false := by
          cases hv : (sameKey fold k).valid with
          | false => rfl
          | true => exact absurd ((valid_iff _).1 hv) hu
        have hm := no_unusable hi hu
        have hri := (hrem (sameKey fold k)).1
        rw [drop_none true hm] at hri
        have e1 : givenBy fold (.vp k p f) = [] := by cases f <;> simp [givenBy, hu]
        have e2 : wasted fold (.vp k p f) = true := by simp [wasted, hp, hu]
        rw [e1, e2]
        simp only [create, store, hv, if_neg (show ¬ (p ≠ 0 ∧ usable (sameKey fold k)) from fun h => hu h.2)]
        refine ⟨⟨hri.rel, hri.fr, hri.calls, hri.nd, hri.us, ?_, ?_⟩, by simp⟩
        · simpa using hri.cons
        · have := hri.mem
          simp
          omega
  | remove k d =>
    have hr := remove_inv hi (sameKey fold k) d
    simp only [step, S.step, fold_eq, givenBy, wasted, List.append_nil]
    cases hm : s.m (sameKey fold k) with
    | none =>
      rw [drop_none d hm, hm] at hr
      exact ⟨by simpa using hr.1, by simpa using hr.2⟩
    | some v =>
      refine ⟨?_, by rw [hr.2, hm]; rfl⟩
      have := hr.1
      unfold S.drop at this
      rw [hm] at this
      simpa using this

theorem run_inv (nul : Bool) (fold : List UInt8 → List UInt8) (ops : List Op) (ho : ∀ o ∈ ops, Ok nul o) :
    Inv nul (run fold ops) (S.run fold ops) (ops.flatMap (givenBy fold)) (ops.countP (wasted fold)) := by
  unfold run S.run
  have key : ∀ (ops : List Op) (h : H) (s : S) (g : List (Nat × UInt64)) (lk : Nat), (∀ o ∈ ops, Ok nul o) → Inv nul h s g lk →
      Inv nul (ops.foldl (fun h o => (step fold h o).2) h) (ops.foldl (fun s o => (s.step fold o).2) s)
        (g ++ ops.flatMap (givenBy fold)) (lk + ops.countP (wasted fold)) := by
    intro ops
    induction ops with
    | nil => intro h s g lk _ hi; simpa using hi
    | cons o ops ih =>
      intro h s g lk ho hi
      have := ih _ _ _ _ (fun o' h' => ho o' (List.mem_cons_of_mem _ h')) (step_inv hi fold o (ho o (List.mem_cons_self ..))).1
      rw [List.foldl_cons, List.foldl_cons, List.flatMap_cons, List.countP_cons]
      have e : lk + (if wasted fold o = true then 1 else 0) + ops.countP (wasted fold)
          = lk + (ops.countP (wasted fold) + if wasted fold o = true then 1 else 0) := by omega
      rw [← List.append_assoc, ← e]
      exact this
  have h0 : Inv nul H.init S.init [] 0 := by
    refine ⟨fun k => ?_, fun k => rfl, rfl, ?_, ?_, ?_, rfl⟩
    · show Rel nul none none
      trivial
    · simp [Nd, H.init]
    · intro k hk; exact absurd rfl hk
    · intro c; rfl
  have := key ops H.init S.init [] 0 ho h0
  simpa using this

theorem given_eq (fold : List UInt8 → List UInt8) (ops : List Op) : given fold ops = ops.flatMap (givenBy fold) := by
  unfold given
  congr 1

end Verif.HashMulti
