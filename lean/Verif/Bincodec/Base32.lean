import Verif.Bincodec.Base64
namespace Verif.Bincodec

/-! ### base32 -/

def digit32 (n j : Nat) : UInt8 := charset32.getD (n / 32 ^ (7 - j) % 32) 0

/-- The first `m` base32 digits of a 40-bit number and `=` for the others. -/
def group32 (n m : Nat) : List UInt8 := (List.range 8).map fun j => if j < m then digit32 n j else 61

/-- The characters of the base32 text of a byte string without line breaks (RFC 4648, section 6). -/
def chars32 : List UInt8 → List UInt8
  | a :: b :: c :: d :: e :: rest =>
    group32 (a.toNat * 2 ^ 32 + b.toNat * 2 ^ 24 + c.toNat * 2 ^ 16 + d.toNat * 2 ^ 8 + e.toNat) 8 ++ chars32 rest
  | [a, b, c, d] => group32 (a.toNat * 2 ^ 32 + b.toNat * 2 ^ 24 + c.toNat * 2 ^ 16 + d.toNat * 2 ^ 8) 7
  | [a, b, c] => group32 (a.toNat * 2 ^ 32 + b.toNat * 2 ^ 24 + c.toNat * 2 ^ 16) 5
  | [a, b] => group32 (a.toNat * 2 ^ 32 + b.toNat * 2 ^ 24) 4
  | [a] => group32 (a.toNat * 2 ^ 32) 2
  | [] => []

theorem or_add {a v : Nat} (k m : Nat) (hv : v < 2 ^ m) : a * 2 ^ (k + m) ||| v <<< k = a * 2 ^ (k + m) + v * 2 ^ k := by
  rw [Nat.shiftLeft_eq, Nat.mul_comm a]
  rw [← Nat.two_pow_add_eq_or_of_lt]
  rw [Nat.pow_add, Nat.mul_comm]
  exact Nat.mul_lt_mul_of_pos_left hv (Nat.two_pow_pos k)

theorem or_add' {x a v n : Nat} (k m : Nat) (hv : v < 2 ^ m) (hx : x = a * 2 ^ (k + m)) (hn : n = x + v * 2 ^ k) :
    x ||| v <<< k = n := by
  rw [hx, or_add k m hv, ← hx, hn]

theorem number5 (a b c d e : UInt8) : b32Number [a, b, c, d, e] =
    a.toNat * 2 ^ 32 + b.toNat * 2 ^ 24 + c.toNat * 2 ^ 16 + d.toNat * 2 ^ 8 + e.toNat := by
  have ha := a.toNat_lt
  have hb := b.toNat_lt
  have hc := c.toNat_lt
  have hd := d.toNat_lt
  have he := e.toNat_lt
  simp only [b32Number, List.zipIdx_cons, List.zipIdx_nil, List.foldl_cons, List.foldl_nil, Nat.zero_or, Nat.zero_mul,
    Nat.sub_zero, Nat.zero_add, Nat.reduceAdd, Nat.reduceMul, Nat.reduceSub]
  rw [or_add' (a := a.toNat) (n := a.toNat * 2 ^ 32 + b.toNat * 2 ^ 24) 24 8 hb (by omega) (by omega),
    or_add' (a := a.toNat * 2 ^ 8 + b.toNat) (n := a.toNat * 2 ^ 32 + b.toNat * 2 ^ 24 + c.toNat * 2 ^ 16) 16 8 hc (by omega) (by omega),
    or_add' (a := a.toNat * 2 ^ 16 + b.toNat * 2 ^ 8 + c.toNat)
      (n := a.toNat * 2 ^ 32 + b.toNat * 2 ^ 24 + c.toNat * 2 ^ 16 + d.toNat * 2 ^ 8) 8 8 hd (by omega) (by omega),
    or_add' (a := a.toNat * 2 ^ 24 + b.toNat * 2 ^ 16 + c.toNat * 2 ^ 8 + d.toNat)
      (n := a.toNat * 2 ^ 32 + b.toNat * 2 ^ 24 + c.toNat * 2 ^ 16 + d.toNat * 2 ^ 8 + e.toNat) 0 8 he (by omega) (by omega)]

theorem number_zero (g : List UInt8) (k : Nat) : b32Number (g ++ List.replicate k 0) = b32Number g := by
  induction k with
  | zero => simp
  | succ k ih =>
    rw [List.replicate_succ', ← List.append_assoc]
    rw [← ih]
    simp [b32Number, List.zipIdx_append]

theorem b32Char_eq (n bytes m j : Nat) (hj : j < 8) (hm : j * 5 > bytes * 8 ↔ ¬ j < m) :
    b32Char n bytes j = if j < m then digit32 n j else 61 := by
  unfold b32Char digit32
  have e : n >>> (35 - j * 5) &&& 0x1F = n / 32 ^ (7 - j) % 32 := by
    rw [Nat.shiftRight_eq_div_pow, show 0x1F = 2 ^ 5 - 1 by rfl, Nat.and_two_pow_sub_one_eq_mod,
      show 35 - j * 5 = 5 * (7 - j) by omega, Nat.pow_mul]
  rw [e]
  by_cases h : j < m
  · rw [if_neg (fun h' => hm.1 h' h), if_pos h]
  · rw [if_pos (hm.2 h), if_neg h]

theorem group_run (cap wrap n bytes m : Nat) (st) (hm : ∀ j, j < 8 → (j * 5 > bytes * 8 ↔ ¬ j < m)) :
    (List.range 8).foldlM (fun st j => b32Adder cap wrap st (b32Char n bytes j)) st =
      (group32 n m).foldlM (b32Adder cap wrap) st := by
  unfold group32
  rw [List.foldlM_map]
  have : ∀ (l : List Nat) st, (∀ j ∈ l, j < 8) →
      l.foldlM (fun st j => b32Adder cap wrap st (b32Char n bytes j)) st =
      l.foldlM (fun x y => b32Adder cap wrap x (if y < m then digit32 n y else 61)) st := by
    intro l
    induction l with
    | nil => intros; rfl
    | cons x l ih =>
      intro st h
      rw [List.foldlM_cons, List.foldlM_cons, b32Char_eq n bytes m x (h x (by simp)) (hm x (h x (by simp)))]
      congr 1
      funext s
      exact ih s (fun j hj => h j (by simp [hj]))
  exact this _ st (by simp)

theorem b32EncLoop_nil (cap wrap : Nat) (st) : b32EncLoop cap wrap [] st = some st := by rw [b32EncLoop, if_pos rfl]

theorem number4 (a b c d : UInt8) : b32Number [a, b, c, d] =
    a.toNat * 2 ^ 32 + b.toNat * 2 ^ 24 + c.toNat * 2 ^ 16 + d.toNat * 2 ^ 8 := by
  rw [← number_zero [a, b, c, d] 1]
  exact (number5 a b c d 0).trans (Nat.add_zero _)

theorem number3 (a b c : UInt8) : b32Number [a, b, c] = a.toNat * 2 ^ 32 + b.toNat * 2 ^ 24 + c.toNat * 2 ^ 16 := by
  rw [← number_zero [a, b, c] 1]
  refine (number4 a b c 0).trans ?_
  rw [show UInt8.toNat 0 = 0 from rfl, Nat.zero_mul, Nat.add_zero]

theorem number2 (a b : UInt8) : b32Number [a, b] = a.toNat * 2 ^ 32 + b.toNat * 2 ^ 24 := by
  rw [← number_zero [a, b] 1]
  refine (number3 a b 0).trans ?_
  rw [show UInt8.toNat 0 = 0 from rfl, Nat.zero_mul, Nat.add_zero]

theorem number1 (a : UInt8) : b32Number [a] = a.toNat * 2 ^ 32 := by
  rw [← number_zero [a] 1]
  refine (number2 a 0).trans ?_
  rw [show UInt8.toNat 0 = 0 from rfl, Nat.zero_mul, Nat.add_zero]

theorem b32EncLoop_step {cap wrap : Nat} {inp g rest : List UInt8} {n bytes m : Nat} (hne : inp ≠ []) (hg : inp.take 5 = g)
    (hn : b32Number g = n) (hb : g.length = bytes) (hr : inp.drop 5 = rest)
    (hm : ∀ j, j < 8 → (j * 5 > bytes * 8 ↔ ¬ j < m)) (st) :
    b32EncLoop cap wrap inp st = ((group32 n m).foldlM (b32Adder cap wrap) st).bind (b32EncLoop cap wrap rest) := by
  rw [b32EncLoop, if_neg hne]
  simp only [hg, hn, hb, hr]
  rw [group_run _ _ n bytes m st hm]

theorem bind_some' {α : Type} (x : Option α) : (x.bind fun a => some a) = x := by cases x <;> rfl

theorem b32EncLoop_eq (cap wrap : Nat) (inp : List UInt8) : ∀ st,
    b32EncLoop cap wrap inp st = (chars32 inp).foldlM (b32Adder cap wrap) st := by
  induction inp using chars32.induct with
  | case1 a b c d e rest ih =>
    intro st
    rw [b32EncLoop_step (g := [a, b, c, d, e]) (rest := rest) (bytes := 5) (m := 8) (List.cons_ne_nil _ _) rfl (number5 a b c d e) rfl rfl (by omega) st]
    rw [chars32, List.foldlM_append]
    congr 1
    funext s
    exact ih s
  | case2 a b c d =>
    intro st
    rw [b32EncLoop_step (g := [a, b, c, d]) (rest := []) (bytes := 4) (m := 7) (List.cons_ne_nil _ _) rfl (number4 a b c d) rfl rfl (by omega) st, chars32]
    simp only [funext (b32EncLoop_nil cap wrap), bind_some']
  | case3 a b c =>
    intro st
    rw [b32EncLoop_step (g := [a, b, c]) (rest := []) (bytes := 3) (m := 5) (List.cons_ne_nil _ _) rfl (number3 a b c) rfl rfl (by omega) st, chars32]
    simp only [funext (b32EncLoop_nil cap wrap), bind_some']
  | case4 a b =>
    intro st
    rw [b32EncLoop_step (g := [a, b]) (rest := []) (bytes := 2) (m := 4) (List.cons_ne_nil _ _) rfl (number2 a b) rfl rfl (by omega) st, chars32]
    simp only [funext (b32EncLoop_nil cap wrap), bind_some']
  | case5 a =>
    intro st
    rw [b32EncLoop_step (g := [a]) (rest := []) (bytes := 1) (m := 2) (List.cons_ne_nil _ _) rfl (number1 a) rfl rfl (by omega) st, chars32]
    simp only [funext (b32EncLoop_nil cap wrap), bind_some']
  | case6 => intro st; rw [b32EncLoop_nil]; rfl

theorem group32_length (n m : Nat) : (group32 n m).length = 8 := by simp [group32]

theorem chars32_length (x : List UInt8) : (chars32 x).length = (x.length + 4) / 5 * 8 := by
  induction x using chars32.induct with
  | case1 a b c d e rest ih => simp only [chars32, List.length_append, List.length_cons, ih, group32_length]; omega
  | case2 a b c d => simp [chars32, group32_length]
  | case3 a b c => simp [chars32, group32_length]
  | case4 a b => simp [chars32, group32_length]
  | case5 a => simp [chars32, group32_length]
  | case6 => rfl

theorem digit_ok : ∀ k : Fin 32, isSpace (charset32.getD k 0) = false ∧ charset32.getD k 0 ≠ 0 ∧
    revCharset32[(charset32.getD k 0).toNat]? = some (k.val : Int) := by decide +kernel

theorem digit32_ok (n j : Nat) : isSpace (digit32 n j) = false ∧ digit32 n j ≠ 0 ∧
    revCharset32[(digit32 n j).toNat]? = some ((n / 32 ^ (7 - j) % 32 : Nat) : Int) := by
  have := digit_ok ⟨n / 32 ^ (7 - j) % 32, Nat.mod_lt _ (by omega)⟩
  exact this

theorem group32_nonsp (n m : Nat) : ∀ c ∈ group32 n m, isSpace c = false ∧ c ≠ 0 := by
  intro c hc
  simp only [group32, List.mem_map] at hc
  obtain ⟨j, _, rfl⟩ := hc
  split
  · exact ⟨(digit32_ok n j).1, (digit32_ok n j).2.1⟩
  · decide

theorem chars32_nonsp (x : List UInt8) : ∀ c ∈ chars32 x, isSpace c = false ∧ c ≠ 0 := by
  induction x using chars32.induct with
  | case1 a b c d e rest ih =>
    intro y hy
    simp only [chars32, List.mem_append] at hy
    rcases hy with hy | hy
    · exact group32_nonsp _ _ y hy
    · exact ih y hy
  | case2 a b c d => exact group32_nonsp _ _
  | case3 a b c => exact group32_nonsp _ _
  | case4 a b => exact group32_nonsp _ _
  | case5 a => exact group32_nonsp _ _
  | case6 => simp [chars32]

theorem b32Encode_eq {cap wrap : Nat} {inp : List UInt8} (hne : inp ≠ []) (hcap : b32EncodeSize inp.length wrap ≤ cap) :
    b32Encode cap inp wrap = some (wrapS wrap 0 (chars32 inp)) ∧
      (wrapS wrap 0 (chars32 inp)).length + 1 = b32EncodeSize inp.length wrap := by
  have hlen : inp.length ≠ 0 := fun h => hne (List.length_eq_zero_iff.1 h)
  have hcl := chars32_length inp
  have hcne : chars32 inp ≠ [] := by intro h; rw [h] at hcl; simp at hcl; omega
  have hwl := wrapS_length wrap (chars32 inp) 0 hcne
  rw [Nat.zero_div, Nat.zero_add, Nat.add_zero] at hwl
  have hsz : b32EncodeSize inp.length wrap = (chars32 inp).length + ((chars32 inp).length - 1) / wrap + 1 := by
    unfold b32EncodeSize
    rw [if_neg hlen]
    have e : (if (8 * inp.length + 4) / 5 % 8 ≠ 0 then (8 * inp.length + 4) / 5 + (8 - (8 * inp.length + 4) / 5 % 8)
        else (8 * inp.length + 4) / 5) = (chars32 inp).length := by rw [hcl]; split <;> omega
    simp only [e]
    generalize hm : (chars32 inp).length = m at *
    have hmpos : 0 < m := by omega
    by_cases hw : wrap = 0
    · subst hw; simp
    · rw [if_pos (by omega)]
      obtain ⟨m', rfl⟩ : ∃ m', m = m' + 1 := ⟨m - 1, by omega⟩
      have hs : (m' + 1) / wrap = m' / wrap + if (m' + 1) % wrap = 0 then 1 else 0 := by
        rw [Nat.succ_div]
        simp only [Nat.dvd_iff_mod_eq_zero]
      rw [hs]
      simp only [Nat.add_sub_cancel]
      by_cases hz : (m' + 1) % wrap = 0
      · simp [hz]
      · simp [hz]
  refine ⟨?_, by omega⟩
  unfold b32Encode
  rw [if_neg (by omega), b32EncLoop_eq, b32Adder_run cap wrap _ [] 0 hcne]
  · simp only [bind, Option.bind_some, List.nil_append, Nat.lt_irrefl, false_and, and_false, if_false, gt_iff_lt]
    rw [put_ok (by omega)]
    rfl
  · simp
    omega

/-! Decoding -/

theorem b32Skip_eq {inp : List UInt8} {inlen : Nat} (hin : inlen ≤ inp.length) {c rest} (n : Nat) : ∀ idx, inlen - idx = n →
    left inp inlen idx = c :: rest →
    ∃ j, b32Skip inp idx = some j ∧ idx ≤ j ∧ j < inlen ∧ inp[j]? = some c ∧ left inp inlen (j + 1) = rest := by
  induction n with
  | zero =>
    intro idx h hl
    rw [left_nil inp (by omega)] at hl
    cases hl
  | succ n ih =>
    intro idx h hl
    have hlt : idx < inlen := by omega
    have hget : inp[idx]? = some inp[idx] := List.getElem?_eq_getElem (by omega)
    rw [left_step hlt hget] at hl
    unfold b32Skip
    rw [dif_pos (by omega)]
    by_cases hs : isSpace inp[idx] = true
    · rw [if_pos hs] at hl ⊢
      obtain ⟨j, h1, h2, h3⟩ := ih (idx + 1) (by omega) hl
      exact ⟨j, h1, by omega, h3⟩
    · rw [if_neg hs] at hl ⊢
      simp only [List.cons.injEq] at hl
      exact ⟨idx, rfl, Nat.le_refl _, hlt, by rw [hget, hl.1], hl.2⟩

theorem b32Group_step {inp : List UInt8} {inlen idx l j n v : Nat} {c rest} (hin : inlen ≤ inp.length)
    (hl : left inp inlen idx = c :: rest) (hc : c ≠ 0) (hv : revCharset32[c.toNat]? = some (v : Int)) :
    ∃ i, b32Group inp (l + 1) j idx n = b32Group inp l (j + 1) i (n ||| v <<< (35 - j * 5)) ∧
      left inp inlen i = rest ∧ idx < i ∧ i ≤ inlen := by
  obtain ⟨i, h1, h2, h3, h4, h5⟩ := b32Skip_eq hin _ idx rfl hl
  refine ⟨i + 1, ?_, h5, by omega, by omega⟩
  rw [b32Group, h1]
  simp only [bind, Option.bind_some, h4]
  rw [if_neg hc, hv]
  simp only [Option.bind_some]
  rw [if_neg (by omega)]
  simp

/-- Eight characters that stand for the digits of `n`. -/
theorem b32Group_eq {inp : List UInt8} {inlen idx n m : Nat} {rest} (hin : inlen ≤ inp.length) (hn : n < 2 ^ 40)
    (hz : ∀ j, m ≤ j → j < 8 → n / 32 ^ (7 - j) % 32 = 0)
    (hl : left inp inlen idx = group32 n m ++ rest) :
    ∃ i, b32Group inp 8 0 idx 0 = some (some (n, i)) ∧ left inp inlen i = rest ∧ idx + 8 ≤ i ∧ i ≤ inlen := by
  have hc : ∀ j, j < 8 → (if j < m then digit32 n j else 61) ≠ 0 ∧
      revCharset32[(if j < m then digit32 n j else 61).toNat]? = some ((n / 32 ^ (7 - j) % 32 : Nat) : Int) := by
    intro j hj
    split
    · exact (digit32_ok n j).2
    next h => rw [hz j (by omega) hj]; decide +kernel
  simp only [group32, show List.range 8 = [0, 1, 2, 3, 4, 5, 6, 7] from rfl, List.map_cons, List.map_nil,
    List.cons_append, List.nil_append] at hl
  obtain ⟨i0, e0, l0, a0, b0⟩ := b32Group_step (l := 7) (j := 0) (n := 0) hin hl (hc 0 (by omega)).1 (hc 0 (by omega)).2
  obtain ⟨i1, e1, l1, a1, b1⟩ := b32Group_step (l := 6) (j := 1) (n := 0 ||| (n / 32 ^ (7 - 0) % 32) <<< (35 - 0 * 5)) hin l0 (hc 1 (by omega)).1 (hc 1 (by omega)).2
  obtain ⟨i2, e2, l2, a2, b2⟩ := b32Group_step (l := 5) (j := 2) (n := _ ||| (n / 32 ^ (7 - 1) % 32) <<< (35 - 1 * 5)) hin l1 (hc 2 (by omega)).1 (hc 2 (by omega)).2
  obtain ⟨i3, e3, l3, a3, b3⟩ := b32Group_step (l := 4) (j := 3) (n := _ ||| (n / 32 ^ (7 - 2) % 32) <<< (35 - 2 * 5)) hin l2 (hc 3 (by omega)).1 (hc 3 (by omega)).2
  obtain ⟨i4, e4, l4, a4, b4⟩ := b32Group_step (l := 3) (j := 4) (n := _ ||| (n / 32 ^ (7 - 3) % 32) <<< (35 - 3 * 5)) hin l3 (hc 4 (by omega)).1 (hc 4 (by omega)).2
  obtain ⟨i5, e5, l5, a5, b5⟩ := b32Group_step (l := 2) (j := 5) (n := _ ||| (n / 32 ^ (7 - 4) % 32) <<< (35 - 4 * 5)) hin l4 (hc 5 (by omega)).1 (hc 5 (by omega)).2
  obtain ⟨i6, e6, l6, a6, b6⟩ := b32Group_step (l := 1) (j := 6) (n := _ ||| (n / 32 ^ (7 - 5) % 32) <<< (35 - 5 * 5)) hin l5 (hc 6 (by omega)).1 (hc 6 (by omega)).2
  obtain ⟨i7, e7, l7, a7, b7⟩ := b32Group_step (l := 0) (j := 7) (n := _ ||| (n / 32 ^ (7 - 6) % 32) <<< (35 - 6 * 5)) hin l6 (hc 7 (by omega)).1 (hc 7 (by omega)).2
  refine ⟨i7, ?_, l7, by omega, b7⟩
  rw [e0, e1, e2, e3, e4, e5, e6, e7, b32Group]
  congr 3
  simp only [Nat.zero_or, Nat.reduceSub, Nat.reduceMul]
  rw [or_add' (a := n / 32 ^ 7) (n := n / 32 ^ 6 * 2 ^ 30) 30 5 (Nat.mod_lt _ (by omega)) (by omega) (by omega),
    or_add' (a := n / 32 ^ 6) (n := n / 32 ^ 5 * 2 ^ 25) 25 5 (Nat.mod_lt _ (by omega)) (by omega) (by omega),
    or_add' (a := n / 32 ^ 5) (n := n / 32 ^ 4 * 2 ^ 20) 20 5 (Nat.mod_lt _ (by omega)) (by omega) (by omega),
    or_add' (a := n / 32 ^ 4) (n := n / 32 ^ 3 * 2 ^ 15) 15 5 (Nat.mod_lt _ (by omega)) (by omega) (by omega),
    or_add' (a := n / 32 ^ 3) (n := n / 32 ^ 2 * 2 ^ 10) 10 5 (Nat.mod_lt _ (by omega)) (by omega) (by omega),
    or_add' (a := n / 32 ^ 2) (n := n / 32 ^ 1 * 2 ^ 5) 5 5 (Nat.mod_lt _ (by omega)) (by omega) (by omega),
    or_add' (a := n / 32 ^ 1) (n := n) 0 5 (Nat.mod_lt _ (by omega)) (by omega) (by omega)]

theorem b32Write_eq {cap : Nat} {out : List UInt8} (a b c d e : UInt8) (h : out.length + 5 ≤ cap) :
    b32Write cap out (a.toNat * 2 ^ 32 + b.toNat * 2 ^ 24 + c.toNat * 2 ^ 16 + d.toNat * 2 ^ 8 + e.toNat) =
      some (out ++ [a, b, c, d, e]) := by
  have ha := a.toNat_lt
  have hb := b.toNat_lt
  have hc := c.toNat_lt
  have hd := d.toNat_lt
  have he := e.toNat_lt
  simp only [b32Write, show List.range 5 = [0, 1, 2, 3, 4] from rfl, List.foldlM_cons, List.foldlM_nil, bind, byteAt]
  rw [put_ok (by omega)]
  simp only [Option.bind_some]
  rw [put_ok (by simp; omega)]
  simp only [Option.bind_some]
  rw [put_ok (by simp; omega)]
  simp only [Option.bind_some]
  rw [put_ok (by simp; omega)]
  simp only [Option.bind_some]
  rw [put_ok (by simp; omega)]
  refine congrArg some ?_
  simp only [List.append_assoc, List.cons_append, List.nil_append, List.append_cancel_left_eq, List.cons.injEq, and_true,
    Nat.reduceMul, Nat.reduceSub, Nat.sub_zero]
  exact ⟨ofNat_eq (by omega), ofNat_eq (by omega), ofNat_eq (by omega), ofNat_eq (by omega), ofNat_eq (by omega)⟩

/-- The zero bytes the decoder adds. -/
def pad5 (x : List UInt8) : List UInt8 := List.replicate ((5 - x.length % 5) % 5) 0

/-- One group: the text of the group of (padded) bytes `a b c d e`. -/
theorem b32DecLoop_group {inp : List UInt8} {inlen cap : Nat} (hin : inlen ≤ inp.length) {fuel idx m n : Nat} {out rest}
    (a b c d e : UInt8) (hnul : ∀ p, p < inlen → inp[p]? ≠ some 0)
    (hn : a.toNat * 2 ^ 32 + b.toNat * 2 ^ 24 + c.toNat * 2 ^ 16 + d.toNat * 2 ^ 8 + e.toNat = n)
    (hz : ∀ j, m ≤ j → j < 8 → n / 32 ^ (7 - j) % 32 = 0)
    (hl : left inp inlen idx = group32 n m ++ rest)
    (hcap : out.length + 5 ≤ cap) :
    ∃ i, b32DecLoop cap inp (fuel + 1) idx out = b32DecLoop cap inp fuel i (out ++ [a, b, c, d, e]) ∧
      left inp inlen i = rest ∧ idx + 8 ≤ i ∧ i ≤ inlen := by
  have ha := a.toNat_lt
  have hb := b.toNat_lt
  have hc := c.toNat_lt
  have hd := d.toNat_lt
  have he := e.toNat_lt
  obtain ⟨i, h1, h2, h3, h4⟩ := b32Group_eq hin (by omega) hz hl
  refine ⟨i, ?_, h2, h3, h4⟩
  have hget : inp[idx]? = some inp[idx] := List.getElem?_eq_getElem (by omega)
  have h0 := hnul idx (by omega)
  rw [hget] at h0
  simp only [ne_eq, Option.some.injEq] at h0
  rw [b32DecLoop, hget]
  simp only [bind, Option.bind_some]
  rw [if_neg h0, h1]
  simp only [Option.bind_some]
  rw [← hn, b32Write_eq a b c d e hcap]
  rfl

theorem z0 : UInt8.toNat 0 = 0 := rfl

theorem b32DecLoop_eq {inp : List UInt8} {inlen cap : Nat} (hin : inlen < inp.length) (hend : inp[inlen]? = some 0)
    (hnul : ∀ p, p < inlen → inp[p]? ≠ some 0) (hlast : ∀ i, i < inlen → left inp inlen i ≠ [])
    (x : List UInt8) : ∀ (fuel idx : Nat) (out : List UInt8), left inp inlen idx = chars32 x →
    out.length + (x ++ pad5 x).length ≤ cap → inlen - idx < fuel → idx ≤ inlen →
    b32DecLoop cap inp fuel idx out = some (out ++ (x ++ pad5 x)) := by
  have hfin : ∀ fuel i out, left inp inlen i = [] → 0 < fuel → i ≤ inlen → b32DecLoop cap inp fuel i out = some out := by
    intro fuel i out hl hf hi
    have : i = inlen := by
      apply Classical.byContradiction
      intro h3
      exact hlast i (by omega) hl
    subst this
    cases fuel with
    | zero => omega
    | succ fuel =>
      rw [b32DecLoop, hend]
      rfl
  induction x using chars32.induct with
  | case1 a b c d e rest ih =>
    intro fuel idx out hl hcap hf hi
    cases fuel with
    | zero => omega
    | succ fuel =>
    have hp : pad5 (a :: b :: c :: d :: e :: rest) = pad5 rest := by simp only [pad5, List.length_cons]; congr 1; omega
    rw [hp] at hcap ⊢
    simp only [List.length_cons, List.cons_append] at hcap
    simp only [chars32] at hl
    obtain ⟨i, e1, e2, e3, e4⟩ := b32DecLoop_group (cap := cap) (Nat.le_of_lt hin) (fuel := fuel) (m := 8) (out := out) a b c d e hnul rfl
      (fun j h1 h2 => absurd h2 (Nat.not_lt.2 h1)) hl (by omega)
    rw [e1, ih fuel i (out ++ [a, b, c, d, e]) e2 (by simp only [List.length_append, List.length_cons, List.length_nil] at hcap ⊢; omega) (by omega) e4]
    simp
  | case2 a b c d =>
    intro fuel idx out hl hcap hf hi
    have hp : [a, b, c, d] ++ pad5 [a, b, c, d] = [a, b, c, d, 0] := rfl
    rw [hp] at hcap ⊢
    simp only [List.length_cons, List.length_nil] at hcap
    cases fuel with
    | zero => omega
    | succ fuel =>
    have hn : a.toNat * 2 ^ 32 + b.toNat * 2 ^ 24 + c.toNat * 2 ^ 16 + d.toNat * 2 ^ 8 + (0 : UInt8).toNat =
        a.toNat * 2 ^ 32 + b.toNat * 2 ^ 24 + c.toNat * 2 ^ 16 + d.toNat * 2 ^ 8 := by
      have := z0
      omega
    have hz : ∀ j, 7 ≤ j → j < 8 → (a.toNat * 2 ^ 32 + b.toNat * 2 ^ 24 + c.toNat * 2 ^ 16 + d.toNat * 2 ^ 8) / 32 ^ (7 - j) % 32 = 0 := by
      clear hn hp hl
      intro j h1 h2
      have : j = 7 := by omega
      rcases this with rfl <;> omega
    obtain ⟨i, e1, e2, e3, e4⟩ := b32DecLoop_group (cap := cap) (Nat.le_of_lt hin) (fuel := fuel) (m := 7) (out := out) (rest := []) a b c d 0 hnul
      hn hz (by rw [hl, chars32, List.append_nil]) (by omega)
    rw [e1, hfin _ _ _ e2 (by omega) e4]
  | case3 a b c =>
    intro fuel idx out hl hcap hf hi
    have hp : [a, b, c] ++ pad5 [a, b, c] = [a, b, c, 0, 0] := rfl
    rw [hp] at hcap ⊢
    simp only [List.length_cons, List.length_nil] at hcap
    cases fuel with
    | zero => omega
    | succ fuel =>
    have hn : a.toNat * 2 ^ 32 + b.toNat * 2 ^ 24 + c.toNat * 2 ^ 16 + (0 : UInt8).toNat * 2 ^ 8 + (0 : UInt8).toNat =
        a.toNat * 2 ^ 32 + b.toNat * 2 ^ 24 + c.toNat * 2 ^ 16 := by
      have := z0
      omega
    have hz : ∀ j, 5 ≤ j → j < 8 → (a.toNat * 2 ^ 32 + b.toNat * 2 ^ 24 + c.toNat * 2 ^ 16) / 32 ^ (7 - j) % 32 = 0 := by
      clear hn hp hl
      intro j h1 h2
      have : j = 7 ∨ j = 6 ∨ j = 5 := by omega
      rcases this with rfl | rfl | rfl <;> omega
    obtain ⟨i, e1, e2, e3, e4⟩ := b32DecLoop_group (cap := cap) (Nat.le_of_lt hin) (fuel := fuel) (m := 5) (out := out) (rest := []) a b c 0 0 hnul
      hn hz (by rw [hl, chars32, List.append_nil]) (by omega)
    rw [e1, hfin _ _ _ e2 (by omega) e4]
  | case4 a b =>
    intro fuel idx out hl hcap hf hi
    have hp : [a, b] ++ pad5 [a, b] = [a, b, 0, 0, 0] := rfl
    rw [hp] at hcap ⊢
    simp only [List.length_cons, List.length_nil] at hcap
    cases fuel with
    | zero => omega
    | succ fuel =>
    have hn : a.toNat * 2 ^ 32 + b.toNat * 2 ^ 24 + (0 : UInt8).toNat * 2 ^ 16 + (0 : UInt8).toNat * 2 ^ 8 + (0 : UInt8).toNat =
        a.toNat * 2 ^ 32 + b.toNat * 2 ^ 24 := by
      have := z0
      omega
    have hz : ∀ j, 4 ≤ j → j < 8 → (a.toNat * 2 ^ 32 + b.toNat * 2 ^ 24) / 32 ^ (7 - j) % 32 = 0 := by
      clear hn hp hl
      intro j h1 h2
      have : j = 7 ∨ j = 6 ∨ j = 5 ∨ j = 4 := by omega
      rcases this with rfl | rfl | rfl | rfl <;> omega
    obtain ⟨i, e1, e2, e3, e4⟩ := b32DecLoop_group (cap := cap) (Nat.le_of_lt hin) (fuel := fuel) (m := 4) (out := out) (rest := []) a b 0 0 0 hnul
      hn hz (by rw [hl, chars32, List.append_nil]) (by omega)
    rw [e1, hfin _ _ _ e2 (by omega) e4]
  | case5 a =>
    intro fuel idx out hl hcap hf hi
    have hp : [a] ++ pad5 [a] = [a, 0, 0, 0, 0] := rfl
    rw [hp] at hcap ⊢
    simp only [List.length_cons, List.length_nil] at hcap
    cases fuel with
    | zero => omega
    | succ fuel =>
    have hn : a.toNat * 2 ^ 32 + (0 : UInt8).toNat * 2 ^ 24 + (0 : UInt8).toNat * 2 ^ 16 + (0 : UInt8).toNat * 2 ^ 8 + (0 : UInt8).toNat =
        a.toNat * 2 ^ 32 := by
      have := z0
      omega
    have hz : ∀ j, 2 ≤ j → j < 8 → (a.toNat * 2 ^ 32) / 32 ^ (7 - j) % 32 = 0 := by
      clear hn hp hl
      intro j h1 h2
      have : j = 7 ∨ j = 6 ∨ j = 5 ∨ j = 4 ∨ j = 3 ∨ j = 2 := by omega
      rcases this with rfl | rfl | rfl | rfl | rfl | rfl <;> omega
    obtain ⟨i, e1, e2, e3, e4⟩ := b32DecLoop_group (cap := cap) (Nat.le_of_lt hin) (fuel := fuel) (m := 2) (out := out) (rest := []) a 0 0 0 0 hnul
      hn hz (by rw [hl, chars32, List.append_nil]) (by omega)
    rw [e1, hfin _ _ _ e2 (by omega) e4]
  | case6 =>
    intro fuel idx out hl hcap hf hi
    rw [hfin _ _ _ hl (by omega) hi]
    simp [pad5]

end Verif.Bincodec
