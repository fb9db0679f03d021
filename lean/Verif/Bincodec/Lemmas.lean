import Verif.Bincodec.Model
namespace Verif.Bincodec

/-! ### Wrapped text -/

/-- `cs` with a newline after every `w` characters except at the end; `len` characters came before. -/
def wrapS (w len : Nat) : List UInt8 → List UInt8
  | [] => []
  | c :: cs => c :: ((if w > 0 ∧ (len + 1) % w = 0 ∧ cs ≠ [] then [10] else []) ++ wrapS w (len + 1) cs)

/-- Number of newlines in `wrapS`. -/
theorem wrapS_length (w : Nat) (cs : List UInt8) : ∀ len, cs ≠ [] →
    (wrapS w len cs).length + len / w = cs.length + (len + cs.length - 1) / w := by
  induction cs with
  | nil => intro len h; exact absurd rfl h
  | cons c cs ih =>
    intro len _
    by_cases hcs : cs = []
    · subst hcs; simp [wrapS]
    · have hi := ih (len + 1) hcs
      have hpos : 0 < cs.length := List.length_pos_iff.2 hcs
      have e1 : len + 1 + cs.length - 1 = len + cs.length := by omega
      rw [e1] at hi
      simp only [wrapS, List.length_cons, List.length_append]
      by_cases hw : w = 0
      · subst hw; simp at hi ⊢; omega
      · have hs : (len + 1) / w = len / w + if (len + 1) % w = 0 then 1 else 0 := by
          rw [Nat.succ_div]
          simp only [Nat.dvd_iff_mod_eq_zero]
        have e2 : len + (cs.length + 1) - 1 = len + cs.length := by omega
        rw [e2]
        split
        next h => rw [if_pos h.2.1] at hs; simp; omega
        next h =>
          have : ¬ (len + 1) % w = 0 := fun h' => h ⟨by omega, h', hcs⟩
          rw [if_neg this] at hs; simp; omega

theorem wrapS_nonsp (w : Nat) (cs : List UInt8) (h : ∀ c ∈ cs, isSpace c = false) : ∀ len,
    (wrapS w len cs).filter (fun c => !isSpace c) = cs := by
  induction cs with
  | nil => intro len; rfl
  | cons c cs ih =>
    intro len
    rw [wrapS, List.filter_cons_of_pos (by simp [h c (by simp)]), List.filter_append,
      ih (fun c hc => h c (by simp [hc])) (len + 1)]
    split
    · rfl
    · rfl

theorem wrapS_getLast (w : Nat) (cs : List UInt8) : ∀ len, (wrapS w len cs).getLast? = cs.getLast? := by
  induction cs with
  | nil => intro len; rfl
  | cons c cs ih =>
    intro len
    by_cases hcs : cs = []
    · subst hcs; simp [wrapS]
    · have : wrapS w (len + 1) cs ≠ [] := by cases cs with
        | nil => exact absurd rfl hcs
        | cons => simp [wrapS]
      rw [wrapS, List.getLast?_cons, List.getLast?_append, ih (len + 1), List.getLast?_cons]
      cases cs with
      | nil => exact absurd rfl hcs
      | cons d cs => simp [List.getLast?_cons]

/-- Writing a run of characters through an adder. -/
theorem put_ok {cap : Nat} {out : List UInt8} {c : UInt8} (h : out.length < cap) : put cap out c = some (out ++ [c]) := by
  simp [put, h]

theorem b64Adder_run (cap w : Nat) (cs : List UInt8) : ∀ (out : List UInt8) (len : Nat), cs ≠ [] →
    out.length + (wrapS w len cs).length + (if w > 0 ∧ (len + cs.length) % w = 0 then 1 else 0) ≤ cap →
    cs.foldlM (b64Adder cap w) (out, len) =
      some (out ++ wrapS w len cs ++ (if w > 0 ∧ (len + cs.length) % w = 0 then [10] else []), len + cs.length) := by
  induction cs with
  | nil => intro out len h; exact absurd rfl h
  | cons c cs ih =>
    intro out len _ hcap
    have hp : out.length < cap := by simp [wrapS] at hcap; omega
    rw [List.foldlM_cons]
    by_cases hcs : cs = []
    · subst hcs
      have hw : wrapS w len [c] = [c] := by simp [wrapS]
      rw [hw] at hcap ⊢
      simp only [List.length_cons, List.length_nil, Nat.zero_add] at hcap ⊢
      simp only [b64Adder, put_ok hp, bind, Option.bind_some]
      by_cases h : w > 0 ∧ (len + 1) % w = 0
      · rw [if_pos h] at hcap ⊢
        rw [if_pos ⟨h.1, by omega, h.2⟩, put_ok (by rw [List.length_append, List.length_singleton]; omega)]
        simp
      · rw [if_neg h, if_neg (fun h' => h ⟨h'.1, h'.2.2⟩)]
        simp
    · have e : len + (c :: cs).length = len + 1 + cs.length := by simp; omega
      rw [e] at hcap ⊢
      simp only [wrapS, List.length_cons, List.length_append] at hcap
      simp only [b64Adder, put_ok hp, bind, Option.bind_some]
      by_cases h : w > 0 ∧ (len + 1) % w = 0
      · rw [if_pos ⟨h.1, h.2, hcs⟩] at hcap
        simp only [List.length_singleton] at hcap
        rw [if_pos ⟨h.1, by omega, h.2⟩, put_ok (by simp; omega)]
        simp only [Option.bind_some]
        rw [ih _ _ hcs (by simp only [List.length_append, List.length_singleton]; omega)]
        simp [wrapS, h.1, h.2, hcs]
      · rw [if_neg (fun h' => h ⟨h'.1, h'.2.1⟩)] at hcap
        simp only [List.length_nil] at hcap
        rw [if_neg (fun h' => h ⟨h'.1, h'.2.2⟩)]
        simp only [Option.bind_some]
        rw [ih _ _ hcs (by simp only [List.length_append, List.length_singleton]; omega)]
        have : ¬ (w > 0 ∧ (len + 1) % w = 0 ∧ cs ≠ []) := fun h' => h ⟨h'.1, h'.2.1⟩
        rw [wrapS, if_neg this]
        simp

theorem b32Adder_run (cap w : Nat) (cs : List UInt8) : ∀ (out : List UInt8) (len : Nat), cs ≠ [] →
    out.length + (if w > 0 ∧ len > 0 ∧ len % w = 0 then 1 else 0) + (wrapS w len cs).length ≤ cap →
    cs.foldlM (b32Adder cap w) (out, len) =
      some (out ++ (if w > 0 ∧ len > 0 ∧ len % w = 0 then [10] else []) ++ wrapS w len cs, len + cs.length) := by
  induction cs with
  | nil => intro out len h; exact absurd rfl h
  | cons c cs ih =>
    intro out len _ hcap
    rw [List.foldlM_cons]
    have hstep : b32Adder cap w (out, len) c =
        some (out ++ (if w > 0 ∧ len > 0 ∧ len % w = 0 then [10] else []) ++ [c], len + 1) := by
      simp only [wrapS, List.length_cons, List.length_append] at hcap
      simp only [b32Adder]
      split
      next h =>
        rw [if_pos ⟨by omega, h.2⟩] at hcap ⊢
        rw [put_ok (by omega)]
        simp only [bind, Option.bind_some]
        rw [put_ok (by simp; omega)]
        simp
      next h =>
        rw [if_neg (fun h' => h ⟨by omega, h'.2⟩)] at hcap ⊢
        simp only [bind, Option.bind_some]
        rw [put_ok (by omega)]
        simp
    rw [hstep]
    simp only [bind, Option.bind_some]
    by_cases hcs : cs = []
    · subst hcs; simp [wrapS]
    · rw [ih _ _ hcs]
      · have : (w > 0 ∧ (len + 1) % w = 0 ∧ cs ≠ []) ↔ (w > 0 ∧ len + 1 > 0 ∧ (len + 1) % w = 0) :=
          ⟨fun h => ⟨h.1, by omega, h.2.1⟩, fun h => ⟨h.1, h.2.2, hcs⟩⟩
        simp only [wrapS, this]
        simp
        omega
      · have : (w > 0 ∧ (len + 1) % w = 0 ∧ cs ≠ []) ↔ (w > 0 ∧ len + 1 > 0 ∧ (len + 1) % w = 0) :=
          ⟨fun h => ⟨h.1, by omega, h.2.1⟩, fun h => ⟨h.1, h.2.2, hcs⟩⟩
        simp only [wrapS, this, List.length_cons, List.length_append] at hcap
        simp only [List.length_append, List.length_singleton]
        simp only [apply_ite List.length, List.length_singleton, List.length_nil] at hcap ⊢
        omega

/-! ### Reading a text with whitespace -/

/-- The non-space characters at `idx` and after, below `inlen`. -/
def left (inp : List UInt8) (inlen idx : Nat) : List UInt8 := ((inp.take inlen).drop idx).filter fun c => !isSpace c

theorem left_step {inp : List UInt8} {inlen idx : Nat} {c : UInt8} (h : idx < inlen) (hc : inp[idx]? = some c) :
    left inp inlen idx = if isSpace c then left inp inlen (idx + 1) else c :: left inp inlen (idx + 1) := by
  unfold left
  have hl : idx < (inp.take inlen).length := by
    have := (List.getElem?_eq_some_iff.1 hc).1
    simp; omega
  rw [List.drop_eq_getElem_cons hl]
  have : (inp.take inlen)[idx] = c := by
    have := (List.getElem?_eq_some_iff.1 hc).2
    simpa using this
  rw [this, List.filter_cons]
  cases isSpace c <;> simp

theorem skipWs_cases {inp : List UInt8} {inlen : Nat} (hin : inlen ≤ inp.length) (n : Nat) : ∀ idx, inlen - idx = n →
    (left inp inlen idx = [] ∧ ∃ j, skipWs inp inlen idx = some j ∧ j ≥ inlen) ∨
    ∃ c j, skipWs inp inlen idx = some j ∧ idx ≤ j ∧ j < inlen ∧ inp[j]? = some c ∧ isSpace c = false ∧
      left inp inlen idx = c :: left inp inlen (j + 1) := by
  induction n with
  | zero =>
    intro idx h
    left
    refine ⟨?_, idx, ?_, by omega⟩
    · unfold left; rw [List.drop_eq_nil_of_le (by simp; omega)]; rfl
    · unfold skipWs; rw [if_neg (by omega)]
  | succ n ih =>
    intro idx h
    have hlt : idx < inlen := by omega
    have hget : inp[idx]? = some inp[idx] := List.getElem?_eq_getElem (by omega)
    rw [left_step hlt hget]
    by_cases hs : isSpace inp[idx] = true
    · rw [if_pos hs]
      have hk : skipWs inp inlen idx = skipWs inp inlen (idx + 1) := by
        rw [skipWs.eq_1 inp inlen idx, if_pos hlt, hget]
        simp only [hs, if_true]
      rw [hk]
      rcases ih (idx + 1) (by omega) with h1 | ⟨c, j, h1, h2, h3⟩
      · exact Or.inl h1
      · exact Or.inr ⟨c, j, h1, by omega, h3⟩
    · rw [if_neg hs]
      right
      refine ⟨inp[idx], idx, ?_, Nat.le_refl _, hlt, hget, by simpa using hs, rfl⟩
      rw [skipWs.eq_1 inp inlen idx, if_pos hlt, hget]
      simp only [hs]
      rfl

end Verif.Bincodec
