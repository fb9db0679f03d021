import Verif.StrFmt.Render
import Verif.StrFmt.Sim
/-! The results are the numbers of bytes in the output. -/
namespace Verif.StrFmt

theorem getSigned_ok {dt : DT} {ap : List Arg} {r : Int × List Arg} (h : getSigned dt ap = some r) : r.1.natAbs < 2 ^ 64 ∧ ∃ l, ap = l ++ r.2 := by
  cases ap with
  | nil => cases dt <;> simp only [getSigned, Option.some.injEq, reduceCtorEq] at h <;> subst h <;> exact ⟨by dsimp only; decide, [], rfl⟩
  | cons a ap =>
    cases a with
    | i x =>
      have b1 := BitVec.two_mul_toInt_lt (x := x)
      have b2 := BitVec.le_two_mul_toInt (x := x)
      have b3 := BitVec.two_mul_toInt_lt (x := x.truncate 8)
      have b4 := BitVec.le_two_mul_toInt (x := x.truncate 8)
      have b5 := BitVec.two_mul_toInt_lt (x := x.truncate 16)
      have b6 := BitVec.le_two_mul_toInt (x := x.truncate 16)
      cases dt <;> simp only [getSigned, Option.some.injEq, reduceCtorEq] at h <;> subst h <;> first | exact ⟨by dsimp only; omega, [_], rfl⟩ | exact ⟨by dsimp only; decide, [], rfl⟩
    | l x =>
      have b1 := BitVec.two_mul_toInt_lt (x := x)
      have b2 := BitVec.le_two_mul_toInt (x := x)
      cases dt <;> simp only [getSigned, Option.some.injEq, reduceCtorEq] at h <;> subst h <;> first | exact ⟨by dsimp only; omega, [_], rfl⟩ | exact ⟨by dsimp only; decide, [], rfl⟩
    | s x => cases dt <;> simp only [getSigned, Option.some.injEq, reduceCtorEq] at h <;> subst h <;> exact ⟨by dsimp only; decide, [], rfl⟩
    | d x => cases dt <;> simp only [getSigned, Option.some.injEq, reduceCtorEq] at h <;> subst h <;> exact ⟨by dsimp only; decide, [], rfl⟩

theorem getUnsigned_ok {dt : DT} {ap : List Arg} {r : Nat × List Arg} (h : getUnsigned dt ap = some r) : r.1 < 2 ^ 64 ∧ ∃ l, ap = l ++ r.2 := by
  cases ap with
  | nil => cases dt <;> simp only [getUnsigned, Option.some.injEq, reduceCtorEq] at h <;> subst h <;> exact ⟨by dsimp only; decide, [], rfl⟩
  | cons a ap =>
    cases a with
    | i x =>
      have b1 := x.isLt
      have b3 := (x.truncate 8).isLt
      have b5 := (x.truncate 16).isLt
      cases dt <;> simp only [getUnsigned, Option.some.injEq, reduceCtorEq] at h <;> subst h <;> first | exact ⟨by dsimp only; omega, [_], rfl⟩ | exact ⟨by dsimp only; decide, [], rfl⟩
    | l x =>
      have b1 := x.isLt
      cases dt <;> simp only [getUnsigned, Option.some.injEq, reduceCtorEq] at h <;> subst h <;> first | exact ⟨by dsimp only; omega, [_], rfl⟩ | exact ⟨by dsimp only; decide, [], rfl⟩
    | s x => cases dt <;> simp only [getUnsigned, Option.some.injEq, reduceCtorEq] at h <;> subst h <;> exact ⟨by dsimp only; decide, [], rfl⟩
    | d x => cases dt <;> simp only [getUnsigned, Option.some.injEq, reduceCtorEq] at h <;> subst h <;> exact ⟨by dsimp only; decide, [], rfl⟩

/-- Undefined, or bytes were added to `t` and the result is their number. -/
def Cnt (t : List UInt8) (r : Option Out) : Prop := r = none ∨ ∃ x p ap, r = some (.mbuf (some (t ++ x)), p, ap, (x.length : Int)) ∧ ArgsOk ap

theorem Cnt.ite {t : List UInt8} {p : Prop} [Decidable p] {a b : Option Out} (h1 : p → Cnt t a) (h2 : ¬ p → Cnt t b) : Cnt t (if p then a else b) := by
  by_cases h : p
  · rw [if_pos h]; exact h1 h
  · rw [if_neg h]; exact h2 h

theorem parseError_cnt (t : List UInt8) (start : Nat) (p : List UInt8) (ap : List Arg) (hok : ArgsOk ap) : Cnt t (parseError (.mbuf (some t)) start p ap) := by
  right
  unfold parseError
  rw [addByte_mbuf, Option.bind_some, if_neg (by dsimp only; decide)]
  dsimp only
  rw [addFill_mbuf]
  refine ⟨[37] ++ List.replicate (start - p.length) 63, p, ap, ?_, hok⟩
  simp only [Option.map_some, List.append_assoc, List.length_append, List.length_cons, List.length_nil, List.length_replicate]
  rfl

theorem ctlLoop_cnt (t : List UInt8) (start : Nat) : ∀ n p, p.length ≤ n → ∀ c ap, ArgsOk ap → Cnt t (ctlLoop (.mbuf (some t)) start p c ap) := by
  intro n
  induction n with
  | zero =>
    intro p hp c ap hok
    have : p = [] := List.eq_nil_of_length_eq_zero (by omega)
    subst this
    unfold ctlLoop
    exact parseError_cnt _ _ _ _ hok
  | succ n ih =>
    intro p hp c ap hok
    cases p with
    | nil => unfold ctlLoop; exact parseError_cnt _ _ _ _ hok
    | cons b p =>
      have hp : p.length ≤ n := by simp only [List.length_cons] at hp; omega
      have hd : (p.drop 2).length ≤ n := by rw [List.length_drop]; omega
      have PE := parseError_cnt t start p ap hok
      have tl : ∀ {a : Arg} {l : List Arg}, ap = a :: l → ArgsOk l := fun e y hy => hok y (by rw [e]; exact List.mem_cons_of_mem _ hy)
      have tl2 : ∀ {a l : List Arg}, ap = a ++ l → ArgsOk l := fun e y hy => hok y (by rw [e]; exact List.mem_append_right _ hy)
      have D : ∀ {x : List UInt8} (l : List Arg), ArgsOk l → Cnt t ((some (Sink.mbuf (some (t ++ x)), (x.length : Int))).bind (done start p l)) := by
        intro x l hl
        rw [Option.bind_some, done_mbuf]
        exact .inr ⟨x, p, l, rfl, hl⟩
      have J : ∀ (o : Option (List UInt8)) (ch : UInt8) (w : Nat) (lj : Bool) (l : List Arg), ArgsOk l → Cnt t ((addJust (.mbuf (some t)) o ch w lj).bind (done start p l)) := by
        intro o ch w lj l hl
        rw [addJust_mbuf]; exact D l hl
      have S : Cnt t ((getSigned c.dt ap).bind fun a =>
          (addIntegerJust (.mbuf (some t)) a.1.natAbs 10 (decide (¬ a.1 < 0)) c.sign false false c.padChar c.padLen c.ljust).bind (done start p a.2)) := by
        cases h : getSigned c.dt ap with
        | none => exact .inl rfl
        | some r =>
          obtain ⟨h1, a, h2⟩ := getSigned_ok h
          rw [Option.bind_some, addIntegerJust_mbuf t _ _ _ _ _ _ _ _ _ (by omega) (by omega) h1 (by simp)]
          exact D _ (tl2 h2)
      have U : ∀ dt base (pre up : Bool), 8 ≤ base → base ≤ 16 → Cnt t ((getUnsigned dt ap).bind fun a =>
          (addIntegerJust (.mbuf (some t)) a.1 base true .neg pre up c.padChar c.padLen c.ljust).bind (done start p a.2)) := by
        intro dt base pre up h8 h16
        cases h : getUnsigned dt ap with
        | none => exact .inl rfl
        | some r =>
          obtain ⟨h1, a, h2⟩ := getUnsigned_ok h
          rw [Option.bind_some, addIntegerJust_mbuf t _ _ _ _ _ _ _ _ _ h8 h16 h1 (fun _ => rfl)]
          exact D _ (tl2 h2)
      unfold ctlLoop
      refine .ite (fun _ => .ite (fun _ => PE) fun _ => ih _ hp _ _ hok) fun _ => ?_
      refine .ite (fun _ => .ite (fun _ => ih _ hp _ _ hok) fun _ => ih _ hp _ _ hok) fun _ => ?_
      refine .ite (fun _ => ?_) fun _ => ?_
      · split
        · exact .ite (fun _ => .ite (fun _ => ih _ hp _ _ (tl rfl)) fun _ => ih _ hp _ _ (tl rfl)) fun _ => ih _ hp _ _ (tl rfl)
        · exact .inl rfl
      refine .ite (fun _ => .ite (fun _ => ih _ hp _ _ hok) fun _ => .ite (fun _ => ih _ hp _ _ hok) fun _ => PE) fun _ => ?_
      refine .ite (fun _ => .ite (fun _ => ih _ hp _ _ hok) fun _ => .ite (fun _ => ih _ hp _ _ hok) fun _ => PE) fun _ => ?_
      refine .ite (fun _ => .ite (fun _ => PE) fun _ => .ite (fun _ => .ite (fun _ => ih _ hd _ _ hok) fun _ => .ite (fun _ => ih _ hd _ _ hok)
        fun _ => ih _ hp _ _ hok) fun _ => ih _ hp _ _ hok) fun _ => ?_
      refine .ite (fun _ => .ite (fun _ => PE) fun _ => ih _ hp _ _ hok) fun _ => ?_
      refine .ite (fun _ => S) fun _ => ?_
      refine .ite (fun _ => U _ _ _ _ (by omega) (by omega)) fun _ => ?_
      refine .ite (fun _ => U _ _ _ _ (by omega) (by omega)) fun _ => ?_
      refine .ite (fun _ => U _ _ _ _ (by omega) (by omega)) fun _ => ?_
      refine .ite (fun _ => U _ _ _ _ (by omega) (by omega)) fun _ => ?_
      refine .ite (fun _ => ?_) fun _ => ?_
      · split
        · rename_i y l
          rw [addDoubleJust_mbuf t y _ _ _ _ _ (hok y (by simp))]
          exact D _ (tl rfl)
        · exact .inl rfl
      refine .ite (fun _ => ?_) fun _ => ?_
      · split
        · exact J _ _ _ _ _ (tl rfl)
        · exact .inl rfl
      refine .ite (fun _ => ?_) fun _ => PE
      split
      · exact J _ _ _ _ _ (tl rfl)
      · rename_i m l
        cases (if c.haveLen then strLenMax m c.inputLen else strLen m) with
        | none => exact .inl rfl
        | some n => exact J _ _ _ _ _ (tl rfl)
      · exact .inl rfl

theorem handleControl_cnt (t : List UInt8) (p : List UInt8) (ap : List Arg) (hok : ArgsOk ap) : Cnt t (handleControl (.mbuf (some t)) p ap) := by
  unfold handleControl
  split
  · exact parseError_cnt _ _ _ _ hok
  · rename_i b p'
    refine .ite (fun _ => ?_) fun _ => ?_
    · rw [addByte_mbuf]; exact .inr ⟨[b], p', ap, rfl, hok⟩
    · cases flagLoop ((b :: p').length + 1) (b :: p') {} with
      | none => exact .inl rfl
      | some r => exact ctlLoop_cnt _ _ _ _ (Nat.le_refl _) _ _ hok

theorem printLoop_cnt : ∀ f t p ap n, ArgsOk ap → printLoop f (.mbuf (some t)) p ap n = none ∨ ∃ x, printLoop f (.mbuf (some t)) p ap n = some (.mbuf (some (t ++ x)), true, n + (x.length : Int)) := by
  intro f
  induction f with
  | zero => intro t p ap n _; exact .inl rfl
  | succ f ih =>
    intro t p ap n hok
    cases p with
    | nil => exact .inr ⟨[], by simp [printLoop]⟩
    | cons b p =>
      have H : Cnt t (if b = 37 then handleControl (.mbuf (some t)) p ap else (addByte (.mbuf (some t)) b).map fun r => (r.1, p, ap, r.2)) :=
        .ite (fun _ => handleControl_cnt _ _ _ hok) fun _ => by rw [addByte_mbuf]; exact .inr ⟨[b], p, ap, rfl, hok⟩
      unfold printLoop
      dsimp only
      rcases H with e | ⟨x, p', ap', e, hok'⟩
      · rw [e]; exact .inl rfl
      · rw [e, Option.bind_some]
        dsimp only
        rw [if_neg (by show ¬ (x.length : Int) = -1; omega)]
        rcases ih (t ++ x) p' ap' (n + x.length) hok' with e | ⟨y, e⟩
        · exact .inl e
        · refine .inr ⟨x ++ y, ?_⟩
          rw [e, List.append_assoc, List.length_append]
          simp only [Option.some.injEq, Prod.mk.injEq, true_and]
          omega

end Verif.StrFmt
