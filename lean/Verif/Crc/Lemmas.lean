import Verif.Crc.Model
namespace Verif.Crc

/-- Addition of polynomials over two elements: `b` is added to the leading coefficients of `a`. -/
def xorp : List Bool → List Bool → List Bool
  | a :: as, b :: bs => (a ^^ b) :: xorp as bs
  | as, [] => as
  | [], _ => []

theorem xorp_length (a b : List Bool) : (xorp a b).length = a.length := by
  fun_induction xorp a b <;> simp_all

/-- The remainder of the division by the polynomial with leading coefficient 1 followed by `g`: schoolbook long division. -/
def rem (g : List Bool) : List Bool → List Bool
  | [] => []
  | b :: t => if t.length < g.length then b :: t else if b then rem g (xorp t g) else rem g t
termination_by p => p.length
decreasing_by all_goals simp [xorp_length]

/-- One step of a shift register with feedback `g`. -/
def lstep (g r : List Bool) (m : Bool) : List Bool :=
  match r with
  | [] => []
  | h :: t => if m ^^ h then xorp (t ++ [false]) g else t ++ [false]

theorem lstep_length (g r : List Bool) (m : Bool) : (lstep g r m).length = r.length := by
  cases r with
  | nil => rfl
  | cons h t => unfold lstep; simp only; split <;> simp [xorp_length]

theorem xorp_nil (a : List Bool) : xorp a [] = a := by cases a <;> rfl

theorem xorp_false (a : List Bool) (n : Nat) : xorp a (List.replicate n false) = a := by
  induction n generalizing a with
  | zero => exact xorp_nil a
  | succ n ih => cases a with
    | nil => rfl
    | cons x a => rw [List.replicate_succ, xorp, ih]; simp

theorem xorp_append_false (a b : List Bool) (n : Nat) : xorp a (b ++ List.replicate n false) = xorp a b := by
  induction b generalizing a with
  | nil => rw [List.nil_append, xorp_false, xorp_nil]
  | cons x b ih => cases a with
    | nil => rfl
    | cons y a => rw [List.cons_append, xorp, xorp, ih]

theorem false_xorp (r : List Bool) : xorp (List.replicate r.length false) r = r := by
  induction r with
  | nil => rfl
  | cons x r ih => rw [List.length_cons, List.replicate_succ, xorp, ih]; simp

theorem xorp_comm3 (a b c : List Bool) : xorp (xorp a b) c = xorp (xorp a c) b := by
  induction a generalizing b c with
  | nil => cases b <;> cases c <;> rfl
  | cons x a ih =>
    cases b with
    | nil => rw [xorp_nil, xorp_nil]
    | cons y b =>
      cases c with
      | nil => rw [xorp_nil, xorp_nil]
      | cons z c =>
        simp only [xorp]
        rw [ih]
        congr 1
        cases x <;> cases y <;> cases z <;> rfl

theorem xorp_append_left (a c r : List Bool) (h : r.length ≤ a.length) : xorp (a ++ c) r = xorp a r ++ c := by
  induction a generalizing r with
  | nil => cases r with
    | nil => rw [xorp_nil, xorp_nil]
    | cons _ _ => simp at h
  | cons x a ih => cases r with
    | nil => rw [xorp_nil, xorp_nil]
    | cons y r => simp only [List.cons_append, xorp]; rw [ih r (by simpa using h)]

theorem rem_cons (g t : List Bool) (b : Bool) : rem g (b :: t) =
    if t.length < g.length then b :: t else if b then rem g (xorp t g) else rem g t := by rw [rem]

/-- Adding a sum is adding twice, when the first summand is the longer one. -/
theorem xorp_xorp (a b c : List Bool) (h : c.length ≤ b.length) : xorp a (xorp b c) = xorp (xorp a b) c := by
  induction a generalizing b c with
  | nil => cases b <;> cases c <;> rfl
  | cons x a ih =>
    cases b with
    | nil =>
      have : c = [] := by cases c with
        | nil => rfl
        | cons _ _ => simp at h
      subst this; rfl
    | cons y b =>
      cases c with
      | nil => rw [xorp_nil, xorp_nil]
      | cons z c =>
        simp only [xorp]
        rw [ih b c (by simpa using h)]
        congr 1
        cases x <;> cases y <;> cases z <;> rfl

/-- Long division is what the shift register computes. -/
theorem rem_eq (g : List Bool) (u : List Bool) : ∀ r : List Bool, r.length = g.length →
    rem g (xorp (u ++ List.replicate g.length false) r) = u.foldl (lstep g) r := by
  induction u with
  | nil =>
    intro r hr
    rw [List.nil_append, ← hr, false_xorp, List.foldl_nil]
    cases r with
    | nil => rw [rem]
    | cons b t => rw [rem_cons, if_pos (by rw [List.length_cons] at hr; omega)]
  | cons m u ih =>
    intro r hr
    rw [List.cons_append, List.foldl_cons]
    cases r with
    | nil =>
      have hg : g = [] := List.length_eq_zero_iff.1 hr.symm
      subst hg
      have := ih [] rfl
      simp only [List.length_nil, List.replicate_zero, List.append_nil, xorp_nil] at this ⊢
      rw [rem_cons, if_neg (by simp), xorp_nil, ite_self, this]
      rfl
    | cons h t =>
      have hlen : (lstep g (h :: t) m).length = g.length := by rw [lstep_length, hr]
      rw [← ih _ hlen, xorp, rem_cons]
      rw [if_neg (by rw [xorp_length, List.length_append, List.length_replicate]; omega)]
      unfold lstep
      simp only
      by_cases hb : (m ^^ h) = true
      · rw [if_pos hb, if_pos hb, xorp_xorp _ _ _ (by rw [List.length_append, List.length_singleton]; rw [List.length_cons] at hr; omega)]
        rw [show [false] = List.replicate 1 false from rfl, xorp_append_false]
      · rw [if_neg hb, if_neg hb]
        rw [show [false] = List.replicate 1 false from rfl, xorp_append_false]

/-- `n` steps with zero input. -/
def iter {α : Type} (f : α → α) : Nat → α → α
  | 0, a => a
  | n + 1, a => iter f n (f a)

theorem lstep_xorp (g r u : List Bool) (m : Bool) (h : u.length < r.length) : lstep g (xorp r (m :: u)) false = xorp (lstep g r m) u := by
  cases r with
  | nil => simp at h
  | cons x t =>
    rw [List.length_cons] at h
    simp only [xorp, lstep]
    rw [← xorp_append_left t [false] u (by omega)]
    by_cases hb : (m ^^ x) = true
    · rw [if_pos (by simp at hb ⊢; cases m <;> cases x <;> simp_all), if_pos hb, xorp_comm3]
    · rw [if_neg (by simp at hb ⊢; cases m <;> cases x <;> simp_all), if_neg hb]

/-- Bits can be added to the register before shifting. -/
theorem feed (g : List Bool) (u : List Bool) : ∀ r : List Bool, u.length ≤ r.length →
    u.foldl (lstep g) r = iter (fun r => lstep g r false) u.length (xorp r u) := by
  induction u with
  | nil => intro r _; rw [xorp_nil]; rfl
  | cons m u ih =>
    intro r h
    rw [List.length_cons] at h
    rw [List.foldl_cons, ih _ (by rw [lstep_length]; omega), List.length_cons, iter, lstep_xorp g r u m (by omega)]

/-- The bits of a word, most or least significant first. -/
def msb {w : Nat} (v : BitVec w) : List Bool := (List.range w).map v.getMsbD
def lsb {w : Nat} (v : BitVec w) : List Bool := (List.range w).map v.getLsbD

theorem msb_length {w : Nat} (v : BitVec w) : (msb v).length = w := by simp [msb]
theorem lsb_length {w : Nat} (v : BitVec w) : (lsb v).length = w := by simp [lsb]

theorem xorp_get (a b : List Bool) (h : a.length = b.length) (i : Nat) : (xorp a b)[i]? = (a[i]?).map fun x => x ^^ b[i]?.getD false := by
  induction a generalizing b i with
  | nil => cases b <;> simp [xorp]
  | cons x a ih =>
    cases b with
    | nil => simp at h
    | cons y b =>
      rw [xorp]
      cases i with
      | zero => simp
      | succ i => simp only [List.getElem?_cons_succ]; exact ih b (by simpa using h) i

theorem msb_get {w : Nat} (v : BitVec w) (i : Nat) : (msb v)[i]? = if i < w then some (v.getMsbD i) else none := by
  unfold msb
  rw [List.getElem?_map]
  split
  · rw [List.getElem?_range (by assumption)]; rfl
  · rw [List.getElem?_eq_none (by simp; omega)]; rfl

theorem lsb_get {w : Nat} (v : BitVec w) (i : Nat) : (lsb v)[i]? = if i < w then some (v.getLsbD i) else none := by
  unfold lsb
  rw [List.getElem?_map]
  split
  · rw [List.getElem?_range (by assumption)]; rfl
  · rw [List.getElem?_eq_none (by simp; omega)]; rfl

theorem msb_xor {w : Nat} (a b : BitVec w) : msb (a ^^^ b) = xorp (msb a) (msb b) := by
  apply List.ext_getElem?
  intro i
  rw [xorp_get _ _ (by rw [msb_length, msb_length]), msb_get, msb_get, msb_get]
  split <;> simp

theorem lsb_xor {w : Nat} (a b : BitVec w) : lsb (a ^^^ b) = xorp (lsb a) (lsb b) := by
  apply List.ext_getElem?
  intro i
  rw [xorp_get _ _ (by rw [lsb_length, lsb_length]), lsb_get, lsb_get, lsb_get]
  split <;> simp

/-- One step of the register as a word, most or least significant bit first. -/
def zm {w : Nat} (g v : BitVec w) : BitVec w := if v.getMsbD 0 then (v <<< 1) ^^^ g else v <<< 1
def zl {w : Nat} (g v : BitVec w) : BitVec w := if v.getLsbD 0 then (v >>> 1) ^^^ g else v >>> 1

theorem msb_shl {w : Nat} (v : BitVec (w + 1)) : msb (v <<< 1) = (msb v).tail ++ [false] := by
  apply List.ext_getElem?
  intro i
  rw [msb_get, BitVec.getMsbD_shiftLeft]
  by_cases h : i < w
  · rw [List.getElem?_append_left (by simp [msb_length]; omega), List.getElem?_tail, msb_get, if_pos (by omega), if_pos (by omega)]
  · rw [List.getElem?_append_right (by simp [msb_length]; omega), List.length_tail, msb_length]
    by_cases h2 : i = w
    · subst h2; simp [BitVec.getMsbD]
    · rw [if_neg (by omega), List.getElem?_eq_none (by simp; omega)]

theorem lsb_shr {w : Nat} (v : BitVec (w + 1)) : lsb (v >>> 1) = (lsb v).tail ++ [false] := by
  apply List.ext_getElem?
  intro i
  rw [lsb_get, BitVec.getLsbD_ushiftRight]
  by_cases h : i < w
  · rw [List.getElem?_append_left (by simp [lsb_length]; omega), List.getElem?_tail, lsb_get, if_pos (by omega), if_pos (by omega), show 1 + i = i + 1 by omega]
  · rw [List.getElem?_append_right (by simp [lsb_length]; omega), List.length_tail, lsb_length]
    by_cases h2 : i = w
    · subst h2; simp [BitVec.getLsbD_of_ge, Nat.add_comm 1 i]
    · rw [if_neg (by omega), List.getElem?_eq_none (by simp; omega)]

theorem msb_cons {w : Nat} (v : BitVec (w + 1)) : msb v = v.getMsbD 0 :: (msb v).tail := by
  have := msb_get v 0
  cases h : msb v with
  | nil => rw [h] at this; simp at this
  | cons a t => rw [h] at this; simp at this; rw [this]; rfl

theorem lsb_cons {w : Nat} (v : BitVec (w + 1)) : lsb v = v.getLsbD 0 :: (lsb v).tail := by
  have := lsb_get v 0
  cases h : lsb v with
  | nil => rw [h] at this; simp at this
  | cons a t => rw [h] at this; simp at this; rw [this]; rfl

theorem msb_step {w : Nat} (g v : BitVec (w + 1)) : msb (zm g v) = lstep (msb g) (msb v) false := by
  rw [msb_cons v]
  unfold zm lstep
  simp only [Bool.false_xor]
  split
  · rw [msb_xor, msb_shl]
  · rw [msb_shl]

theorem lsb_step {w : Nat} (g v : BitVec (w + 1)) : lsb (zl g v) = lstep (lsb g) (lsb v) false := by
  rw [lsb_cons v]
  unfold zl lstep
  simp only [Bool.false_xor]
  split
  · rw [lsb_xor, lsb_shr]
  · rw [lsb_shr]

theorem iter_map {α β : Type} (f : α → α) (g : β → β) (h : α → β) (hc : ∀ a, h (f a) = g (h a)) (n : Nat) (a : α) :
    h (iter f n a) = iter g n (h a) := by
  induction n generalizing a with
  | zero => rfl
  | succ n ih => rw [iter, iter, ih, hc]

theorem zm_xor {w : Nat} (g a b : BitVec w) : zm g (a ^^^ b) = zm g a ^^^ zm g b := by
  unfold zm
  rw [BitVec.shiftLeft_xor_distrib, BitVec.getMsbD_xor]
  cases a.getMsbD 0 <;> cases b.getMsbD 0 <;>
    simp only [Bool.xor_self, Bool.xor_true, Bool.xor_false, Bool.not_false, if_true, if_false, Bool.false_eq_true] <;>
    generalize a <<< 1 = x <;> generalize b <<< 1 = y <;> apply BitVec.eq_of_getLsbD_eq <;> intro i hi <;> simp only [BitVec.getLsbD_xor] <;>
    cases x.getLsbD i <;> cases y.getLsbD i <;> cases g.getLsbD i <;> rfl

theorem zl_xor {w : Nat} (g a b : BitVec w) : zl g (a ^^^ b) = zl g a ^^^ zl g b := by
  unfold zl
  rw [BitVec.ushiftRight_xor_distrib, BitVec.getLsbD_xor]
  cases a.getLsbD 0 <;> cases b.getLsbD 0 <;>
    simp only [Bool.xor_self, Bool.xor_true, Bool.xor_false, Bool.not_false, if_true, if_false, Bool.false_eq_true] <;>
    generalize a >>> 1 = x <;> generalize b >>> 1 = y <;> apply BitVec.eq_of_getLsbD_eq <;> intro i hi <;> simp only [BitVec.getLsbD_xor] <;>
    cases x.getLsbD i <;> cases y.getLsbD i <;> cases g.getLsbD i <;> rfl

theorem iter_xor {w : Nat} (f : BitVec w → BitVec w) (hf : ∀ a b, f (a ^^^ b) = f a ^^^ f b) (n : Nat) (a b : BitVec w) :
    iter f n (a ^^^ b) = iter f n a ^^^ iter f n b := by
  induction n generalizing a b with
  | zero => rfl
  | succ n ih => rw [iter, iter, iter, hf, ih]

/-! Injectivity -/

theorem xorp_inj (r u u' : List Bool) (h : u.length = u'.length) (hr : u.length ≤ r.length) (e : xorp r u = xorp r u') : u = u' := by
  induction u generalizing r u' with
  | nil => exact (List.length_eq_zero_iff.1 h.symm).symm
  | cons x u ih =>
    cases u' with
    | nil => simp at h
    | cons y u' =>
      cases r with
      | nil => simp at hr
      | cons z r =>
        simp only [xorp, List.cons.injEq] at e
        rw [ih r u' (by simpa using h) (by simpa using hr) e.2]
        congr 1
        cases x <;> cases y <;> cases z <;> simp_all

theorem xorp_inj_left (r r' u : List Bool) (h : r.length = r'.length) (e : xorp r u = xorp r' u) : r = r' := by
  induction r generalizing r' u with
  | nil => exact (List.length_eq_zero_iff.1 h.symm).symm
  | cons x r ih =>
    cases r' with
    | nil => simp at h
    | cons y r' =>
      cases u with
      | nil => simpa [xorp_nil] using e
      | cons z u =>
        simp only [xorp, List.cons.injEq] at e
        rw [ih r' u (by simpa using h) e.2]
        congr 1
        cases x <;> cases y <;> cases z <;> simp_all

theorem xorp_getLast (a b : List Bool) (x y : Bool) (h : a.length = b.length) : xorp (a ++ [x]) (b ++ [y]) = xorp a b ++ [x ^^ y] := by
  induction a generalizing b with
  | nil => cases b with
    | nil => rfl
    | cons _ _ => simp at h
  | cons c a ih => cases b with
    | nil => simp at h
    | cons d b => simp only [List.cons_append, xorp]; rw [ih b (by simpa using h)]

/-- The register can be run backwards when the constant coefficient is 1. -/
theorem lstep_inj (g0 r r' : List Bool) (m : Bool) (hr : r.length = g0.length + 1) (hr' : r'.length = g0.length + 1)
    (e : lstep (g0 ++ [true]) r m = lstep (g0 ++ [true]) r' m) : r = r' := by
  match r, r', hr, hr' with
  | x :: t, y :: t', hr, hr' =>
    rw [List.length_cons] at hr hr'
    simp only [lstep] at e
    have ht : t.length = g0.length := by omega
    have ht' : t'.length = g0.length := by omega
    rw [xorp_getLast _ _ _ _ ht, xorp_getLast _ _ _ _ ht'] at e
    by_cases h1 : (m ^^ x) = true <;> by_cases h2 : (m ^^ y) = true
    · rw [if_pos h1, if_pos h2] at e
      have := (List.append_inj' e rfl).1
      rw [xorp_inj_left _ _ _ (by omega) this]
      congr 1
      cases m <;> cases x <;> cases y <;> simp_all
    · rw [if_pos h1, if_neg h2] at e
      have := (List.append_inj' e rfl).2
      simp at this
    · rw [if_neg h1, if_pos h2] at e
      have := (List.append_inj' e rfl).2
      simp at this
    · rw [if_neg h1, if_neg h2] at e
      have := (List.append_inj' e rfl).1
      rw [this]
      congr 1
      cases m <;> cases x <;> cases y <;> simp_all

theorem foldl_length (g u r : List Bool) : (u.foldl (lstep g) r).length = r.length := by
  induction u generalizing r with
  | nil => rfl
  | cons m u ih => rw [List.foldl_cons, ih, lstep_length]

theorem foldl_inj (g0 u : List Bool) : ∀ r r' : List Bool, r.length = g0.length + 1 → r'.length = g0.length + 1 →
    u.foldl (lstep (g0 ++ [true])) r = u.foldl (lstep (g0 ++ [true])) r' → r = r' := by
  induction u with
  | nil => intro r r' _ _ e; exact e
  | cons m u ih =>
    intro r r' hr hr' e
    exact lstep_inj g0 r r' m hr hr' (ih _ _ (by rw [lstep_length, hr]) (by rw [lstep_length, hr']) e)

theorem iter_inj (g0 : List Bool) (n : Nat) : ∀ r r' : List Bool, r.length = g0.length + 1 → r'.length = g0.length + 1 →
    iter (fun r => lstep (g0 ++ [true]) r false) n r = iter (fun r => lstep (g0 ++ [true]) r false) n r' → r = r' := by
  induction n with
  | zero => intro r r' _ _ e; exact e
  | succ n ih =>
    intro r r' hr hr' e
    exact lstep_inj g0 r r' false hr hr' (ih _ _ (by rw [lstep_length, hr]) (by rw [lstep_length, hr']) e)

/-- Two streams that differ only in a burst no longer than the register leave different registers. -/
theorem burst (g0 p u u' q r : List Bool) (hr : r.length = g0.length + 1) (hu : u.length = u'.length) (hw : u.length ≤ g0.length + 1)
    (e : (p ++ u ++ q).foldl (lstep (g0 ++ [true])) r = (p ++ u' ++ q).foldl (lstep (g0 ++ [true])) r) : u = u' := by
  rw [List.foldl_append, List.foldl_append, List.foldl_append, List.foldl_append] at e
  have h1 := foldl_inj g0 q _ _ (by rw [foldl_length, foldl_length, hr]) (by rw [foldl_length, foldl_length, hr]) e
  have hl : (p.foldl (lstep (g0 ++ [true])) r).length = g0.length + 1 := by rw [foldl_length, hr]
  rw [feed _ u _ (by omega), feed _ u' _ (by omega), ← hu] at h1
  have h2 := iter_inj g0 _ _ _ (by rw [xorp_length, hl]) (by rw [xorp_length, hl]) h1
  exact xorp_inj _ _ _ hu (by omega) h2

end Verif.Crc
