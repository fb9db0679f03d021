import Verif.StrFmt.Model
/-! The functions reach the output through `addBytes` only: two outputs that agree there agree everywhere. -/
namespace Verif.StrFmt

/-- Two results that are the same up to related outputs. -/
def Rel (R : Sink → Sink → Prop) {α : Type} (a b : Option (Sink × α)) : Prop :=
  (a = none ∧ b = none) ∨ ∃ s m x, a = some (s, x) ∧ b = some (m, x) ∧ R s m

/-- Related outputs take the same bytes with the same result. -/
def Agree (R : Sink → Sink → Prop) : Prop := ∀ s m b, R s m → Rel R (addBytes s b) (addBytes m b)

section
variable {R : Sink → Sink → Prop} {α β : Type}

theorem Rel.some {s m : Sink} {x : α} (h : R s m) : Rel R (some (s, x)) (some (m, x)) := .inr ⟨s, m, x, rfl, rfl, h⟩
theorem Rel.none : Rel R (none : Option (Sink × α)) Option.none := .inl ⟨rfl, rfl⟩

theorem Rel.bind {a b : Option (Sink × α)} {f g : Sink × α → Option (Sink × β)} (h : Rel R a b) (hf : ∀ s m x, R s m → Rel R (f (s, x)) (g (m, x))) :
    Rel R (a.bind f) (b.bind g) := by
  rcases h with ⟨rfl, rfl⟩ | ⟨s, m, x, rfl, rfl, h⟩
  · exact .none
  · exact hf s m x h

theorem Rel.map {a b : Option (Sink × α)} {f g : Sink × α → Sink × β} (h : Rel R a b) (hf : ∀ s m x, R s m → Rel R (Option.some (f (s, x))) (Option.some (g (m, x)))) :
    Rel R (a.map f) (b.map g) := by
  rcases h with ⟨rfl, rfl⟩ | ⟨s, m, x, rfl, rfl, h⟩
  · exact .none
  · exact hf s m x h

theorem Rel.bind' {γ : Type} {a : Option γ} {f g : γ → Option (Sink × β)} (hf : ∀ x, Rel R (f x) (g x)) : Rel R (a.bind f) (a.bind g) := by
  cases a with
  | none => exact .none
  | some x => exact hf x

theorem Rel.ite {p : Prop} [Decidable p] {a b c d : Option (Sink × α)} (h1 : p → Rel R a b) (h2 : ¬ p → Rel R c d) :
    Rel R (if p then a else c) (if p then b else d) := by
  by_cases h : p
  · rw [if_pos h, if_pos h]; exact h1 h
  · rw [if_neg h, if_neg h]; exact h2 h

theorem addByte_rel (A : Agree R) {s m : Sink} (h : R s m) (b : UInt8) : Rel R (addByte s b) (addByte m b) := A s m [b] h

theorem fillLoop_rel (A : Agree R) (b : UInt8) : ∀ n {s m : Sink}, R s m → Rel R (fillLoop b n s) (fillLoop b n m) := by
  intro n
  induction n with
  | zero => intro s m h; exact .some h
  | succ n ih =>
    intro s m h
    unfold fillLoop
    refine (addByte_rel A h b).bind fun s m x h => .ite (fun _ => .some h) fun _ => ih h

theorem addFill_rel (A : Agree R) {s m : Sink} (h : R s m) (b : UInt8) (n : Nat) : Rel R (addFill s b n) (addFill m b n) :=
  (fillLoop_rel A b n h).map fun _ _ _ h => .some h

theorem addJust_rel (A : Agree R) {s m : Sink} (h : R s m) (bytes : Option (List UInt8)) (c : UInt8) (n : Nat) (l : Bool) :
    Rel R (addJust s bytes c n l) (addJust m bytes c n l) := by
  unfold addJust
  refine Rel.bind (.ite (fun _ => addFill_rel A h ..) fun _ => .some h) fun s m x h => .ite (fun _ => .some h) fun _ => ?_
  refine (A s m _ h).bind fun s m x h => .ite (fun _ => .some h) fun _ => ?_
  refine Rel.map (.ite (fun _ => addFill_rel A h ..) fun _ => .some h) fun s m x h => ?_
  have key : ∀ (q : Prop) [Decidable q] (y z : Int), Rel R (Option.some (if q then (s, y) else (s, z))) (Option.some (if q then (m, y) else (m, z))) := by
    intro q _ y z
    split
    · exact .some h
    · exact .some h
  exact key _ _ _

theorem addSign_rel (A : Agree R) {s m : Sink} (h : R s m) (cap : Nat) (bytes : List UInt8) (pos : Bool) (st : Sign) (c : UInt8) (n : Nat) :
    Rel R (addSign cap s bytes pos st c n) (addSign cap m bytes pos st c n) := by
  unfold addSign
  exact .ite (fun _ => .some h) fun _ => .ite (fun _ => (addByte_rel A h _).map fun _ _ _ h => .some h) fun _ => .ite (fun _ => .some h) fun _ => .none

theorem addPrefix_rel (A : Agree R) {s m : Sink} (h : R s m) (cap : Nat) (bytes : List UInt8) (base : Nat) (up : Bool) (c : UInt8) (n : Nat) :
    Rel R (addPrefix cap s bytes base up c n) (addPrefix cap m bytes base up c n) := by
  unfold addPrefix
  exact .ite (fun _ => .some h) fun _ => .ite (fun _ => (addJust_rel A h ..).map fun _ _ _ h => .some h) fun _ => .ite (fun _ => .some h) fun _ => .none

theorem addIntegerJust_rel (A : Agree R) {s m : Sink} (h : R s m) (val base : Nat) (pos : Bool) (st : Sign) (pre up : Bool) (c : UInt8) (n : Nat) (l : Bool) :
    Rel R (addIntegerJust s val base pos st pre up c n l) (addIntegerJust m val base pos st pre up c n l) := by
  unfold addIntegerJust
  refine .ite (fun _ => .some h) fun _ => .bind' fun bytes => (addSign_rel A h ..).bind fun s m x h => ?_
  refine Rel.bind (.ite (fun _ => addPrefix_rel A h ..) fun _ => .some h) fun s m y h => ?_
  exact (addJust_rel A h ..).map fun s m z h => .some h

theorem addDoubleJust_rel (A : Agree R) {s m : Sink} (h : R s m) (d : Dbl) (st : Sign) (prec : Nat) (c : UInt8) (n : Nat) (l : Bool) :
    Rel R (addDoubleJust s d st prec c n l) (addDoubleJust m d st prec c n l) := by
  unfold addDoubleJust
  exact (addSign_rel A h ..).bind fun s m x h => (addJust_rel A h ..).map fun s m z h => .some h

theorem parseError_rel (A : Agree R) {s m : Sink} (h : R s m) (start : Nat) (p : List UInt8) (ap : List Arg) :
    Rel R (parseError s start p ap) (parseError m start p ap) := by
  unfold parseError
  exact (addByte_rel A h _).bind fun s m x h => .ite (fun _ => .some h) fun _ => (addFill_rel A h ..).map fun s m z h => .some h

theorem done_rel (A : Agree R) {s m : Sink} (h : R s m) (start : Nat) (p : List UInt8) (ap : List Arg) (x : Int) :
    Rel R (done start p ap (s, x)) (done start p ap (m, x)) := by
  unfold done
  exact .ite (fun _ => parseError_rel A h ..) fun _ => .some h

theorem ctlLoop_rel (A : Agree R) {s m : Sink} (h : R s m) (start : Nat) : ∀ n p, p.length ≤ n → ∀ c ap,
    Rel R (ctlLoop s start p c ap) (ctlLoop m start p c ap) := by
  intro n
  induction n with
  | zero =>
    intro p hp c ap
    have : p = [] := List.eq_nil_of_length_eq_zero (by omega)
    subst this
    unfold ctlLoop
    exact parseError_rel A h ..
  | succ n ih =>
    intro p hp c ap
    cases p with
    | nil => unfold ctlLoop; exact parseError_rel A h ..
    | cons b p =>
      have hp : p.length ≤ n := by simp only [List.length_cons] at hp; omega
      have hd : (p.drop 2).length ≤ n := by rw [List.length_drop]; omega
      have PE := fun ap => parseError_rel A h start p ap
      have D : ∀ {r1 r2 : Option (Sink × Int)} (ap : List Arg), Rel R r1 r2 → Rel R (r1.bind (done start p ap)) (r2.bind (done start p ap)) :=
        fun ap hr => hr.bind fun s m x h => done_rel A h ..
      unfold ctlLoop
      refine .ite (fun _ => .ite (fun _ => PE _) fun _ => ih _ hp _ _) fun _ => ?_
      refine .ite (fun _ => .ite (fun _ => ih _ hp _ _) fun _ => ih _ hp _ _) fun _ => ?_
      refine .ite (fun _ => ?_) fun _ => ?_
      · split
        · exact .ite (fun _ => .ite (fun _ => ih _ hp _ _) fun _ => ih _ hp _ _) fun _ => ih _ hp _ _
        · exact .none
      refine .ite (fun _ => .ite (fun _ => ih _ hp _ _) fun _ => .ite (fun _ => ih _ hp _ _) fun _ => PE _) fun _ => ?_
      refine .ite (fun _ => .ite (fun _ => ih _ hp _ _) fun _ => .ite (fun _ => ih _ hp _ _) fun _ => PE _) fun _ => ?_
      refine .ite (fun _ => .ite (fun _ => PE _) fun _ => .ite (fun _ => .ite (fun _ => ih _ hd _ _) fun _ => .ite (fun _ => ih _ hd _ _)
        fun _ => ih _ hp _ _) fun _ => ih _ hp _ _) fun _ => ?_
      refine .ite (fun _ => .ite (fun _ => PE _) fun _ => ih _ hp _ _) fun _ => ?_
      refine .ite (fun _ => .bind' fun a => D _ (addIntegerJust_rel A h ..)) fun _ => ?_
      refine .ite (fun _ => .bind' fun a => D _ (addIntegerJust_rel A h ..)) fun _ => ?_
      refine .ite (fun _ => .bind' fun a => D _ (addIntegerJust_rel A h ..)) fun _ => ?_
      refine .ite (fun _ => .bind' fun a => D _ (addIntegerJust_rel A h ..)) fun _ => ?_
      refine .ite (fun _ => .bind' fun a => D _ (addIntegerJust_rel A h ..)) fun _ => ?_
      refine .ite (fun _ => ?_) fun _ => ?_
      · split
        · exact D _ (addDoubleJust_rel A h ..)
        · exact .none
      refine .ite (fun _ => ?_) fun _ => ?_
      · split
        · exact D _ (addJust_rel A h ..)
        · exact .none
      refine .ite (fun _ => ?_) fun _ => PE _
      split
      · exact D _ (addJust_rel A h ..)
      · exact .bind' fun n => D _ (addJust_rel A h ..)
      · exact .none

theorem handleControl_rel (A : Agree R) {s m : Sink} (h : R s m) (p : List UInt8) (ap : List Arg) : Rel R (handleControl s p ap) (handleControl m p ap) := by
  unfold handleControl
  split
  · exact parseError_rel A h ..
  · exact .ite (fun _ => (addByte_rel A h _).map fun s m x h => .some h) fun _ => .bind' fun r => ctlLoop_rel A h _ _ _ (Nat.le_refl _) _ _

theorem printLoop_rel (A : Agree R) : ∀ f {s m : Sink}, R s m → ∀ p ap n, Rel R (printLoop f s p ap n) (printLoop f m p ap n) := by
  intro f
  induction f with
  | zero => intro s m h p ap n; exact .none
  | succ f ih =>
    intro s m h p ap n
    unfold printLoop
    split
    · exact .some h
    · exact Rel.bind (.ite (fun _ => handleControl_rel A h ..) fun _ => (addByte_rel A h _).map fun s m x h => .some h) fun s m x h =>
        .ite (fun _ => .some h) fun _ => ih h _ _ _

end
end Verif.StrFmt
