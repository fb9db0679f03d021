import Verif.Hexdump.Spec
/- Reading what was written. -/
namespace Verif.Hexdump

theorem skip_append (p t : List UInt8) : skip p (p ++ t) = some t := by
  induction p with
  | nil => simp [skip]
  | cons c p ih => simp [skip, ih]

/-! ## Numbers -/

/-- The value of digits. -/
def value (b : Nat) (l : List Nat) : Nat := l.foldl (fun a v => a * b + v) 0

theorem digs_value (b : Nat) (hb : 2 ≤ b) : ∀ f n, n ≤ f → value b (digs b f n) = n := by
  intro f
  induction f with
  | zero => intro n h; have : n = 0 := by omega
            subst this; simp [digs, value]
  | succ f ih =>
    intro n h
    simp only [digs]
    split
    · rename_i h0
      have h1 : n < b := by
        rcases Nat.lt_or_ge n b with h1 | h1
        · exact h1
        · have := Nat.div_pos h1 (by omega); omega
      simp [value, Nat.mod_eq_of_lt h1]
    · rename_i h0
      have h1 : n / b ≤ f := by
        have : n / b < n := Nat.div_lt_self (by rcases Nat.eq_zero_or_pos n with h | h
                                                · subst h; simp at h0
                                                · exact h) (by omega)
        omega
      have := ih _ h1
      unfold value at this ⊢
      rw [List.foldl_append, this]
      simp only [List.foldl_cons, List.foldl_nil]
      have := Nat.div_add_mod n b
      rw [Nat.mul_comm] at this
      exact this

theorem digs_lt (b : Nat) (hb : 2 ≤ b) : ∀ f n, ∀ v ∈ digs b f n, v < b := by
  intro f
  induction f with
  | zero => intro n v hv; simp [digs] at hv; subst hv; exact Nat.mod_lt _ (by omega)
  | succ f ih =>
    intro n v hv
    simp only [digs] at hv
    split at hv
    · simp at hv; subst hv; exact Nat.mod_lt _ (by omega)
    · rcases List.mem_append.1 hv with hv | hv
      · exact ih _ v hv
      · simp at hv; subst hv; exact Nat.mod_lt _ (by omega)

theorem digs_length (b : Nat) (hb : 2 ≤ b) : ∀ f n, n ≤ f → ∀ w, 1 ≤ w → ((digs b f n).length ≤ w ↔ n < b ^ w) := by
  intro f
  induction f with
  | zero =>
    intro n h w hw
    have : n = 0 := by omega
    subst this
    simp only [digs, List.length_singleton]
    exact ⟨fun _ => Nat.pow_pos (by omega), fun _ => hw⟩
  | succ f ih =>
    intro n h w hw
    simp only [digs]
    split
    · rename_i h0
      have h1 : n < b := by
        rcases Nat.lt_or_ge n b with h1 | h1
        · exact h1
        · have := Nat.div_pos h1 (by omega); omega
      refine ⟨fun _ => ?_, fun _ => hw⟩
      have : b ^ 1 ≤ b ^ w := Nat.pow_le_pow_right (by omega) hw
      rw [Nat.pow_one] at this
      omega
    · rename_i h0
      have h1 : n / b ≤ f := by
        have : n / b < n := Nat.div_lt_self (by rcases Nat.eq_zero_or_pos n with h | h
                                                · subst h; simp at h0
                                                · exact h) (by omega)
        omega
      rw [List.length_append, List.length_singleton]
      have hbn : b ≤ n := by
        rcases Nat.lt_or_ge n b with h2 | h2
        · exact absurd (Nat.div_eq_of_lt h2) h0
        · exact h2
      rcases Nat.lt_or_ge 1 w with h2 | h2
      · obtain ⟨w, rfl⟩ : ∃ k, w = k + 1 := ⟨w - 1, by omega⟩
        have := ih _ h1 w (by omega)
        rw [Nat.pow_succ, ← Nat.div_lt_iff_lt_mul (by omega), ← this]
        omega
      · have : w = 1 := by omega
        subst this
        rw [Nat.pow_one]
        have h3 : 1 ≤ (digs b f (n / b)).length := by
          cases f <;> simp only [digs] <;> (try split) <;> simp
        omega

theorem print_length (b : Nat) (hb : 2 ≤ b) (u : Bool) (n w : Nat) (hw : 1 ≤ w) : (print b u n).length ≤ w ↔ n < b ^ w := by
  unfold print
  rw [List.length_map]
  exact digs_length b hb n n (Nat.le_refl _) w hw

theorem digitVal_digit (u : Bool) (k : Nat) (h : k < 16) : digitVal u (digit u k) = some k := by
  have key : ∀ u : Bool, ∀ k : Fin 16, digitVal u (digit u k) = some k.val := by decide +kernel
  exact key u ⟨k, h⟩

theorem digitVal_dec (u : Bool) (k : Nat) (h : k < 10) : digitVal u (digit false k) = some k := by
  have key : ∀ u : Bool, ∀ k : Fin 10, digitVal u (digit false k) = some k.val := by decide +kernel
  exact key u ⟨k, h⟩

theorem readNum_map (b : Nat) (u u' : Bool) (hd : ∀ k < b, digitVal u (digit u' k) = some k) (l : List Nat) (hl : ∀ v ∈ l, v < b) (acc : Nat) (t : List UInt8) :
    readNum b u l.length acc (l.map (digit u') ++ t) = some (l.foldl (fun a v => a * b + v) acc, t) := by
  induction l generalizing acc with
  | nil => simp [readNum]
  | cons v l ih =>
    have hv := hl v (by simp)
    simp only [List.length_cons, List.map_cons, List.cons_append, readNum, hd v hv, if_pos hv, List.foldl_cons]
    exact ih (fun v h => hl v (by simp [h])) _

theorem readNum_print (b : Nat) (hb : 2 ≤ b) (hb' : b ≤ 16) (u u' : Bool) (hd : ∀ k < b, digitVal u (digit u' k) = some k) (n w : Nat) (h : (print b u' n).length ≤ w) (t : List UInt8) :
    readNum b u w 0 (List.replicate (w - (print b u' n).length) 48 ++ print b u' n ++ t) = some (n, t) := by
  have e : List.replicate (w - (print b u' n).length) 48 ++ print b u' n = (List.replicate (w - (print b u' n).length) 0 ++ digs b n n).map (digit u') := by
    rw [List.map_append, List.map_replicate]
    have : ∀ u, digit u 0 = 48 := by decide
    rw [this]; rfl
  have hlen : (List.replicate (w - (print b u' n).length) 0 ++ digs b n n).length = w := by
    unfold print at h ⊢
    rw [List.length_map] at h
    simp; omega
  rw [e]
  have := readNum_map b u u' hd (List.replicate (w - (print b u' n).length) 0 ++ digs b n n) ?_ 0 t
  · rw [hlen] at this
    rw [this, List.foldl_append]
    have hz : ∀ m, List.foldl (fun a v => a * b + v) 0 (List.replicate m 0) = 0 := by
      intro m
      induction m with
      | zero => rfl
      | succ m ih => rw [List.replicate_succ, List.foldl_cons]; simpa using ih
    rw [hz]
    have := digs_value b hb n n (Nat.le_refl _)
    unfold value at this
    rw [this]
  · intro v hv
    rcases List.mem_append.1 hv with hv | hv
    · rw [List.mem_replicate] at hv; omega
    · exact digs_lt b hb _ _ v hv

/-- A number in its column. -/
theorem readNum_number (o : Opt) (n w : Nat) (hw : 1 ≤ w) (h : n < (if o.declen then 10 else 16) ^ w) (t : List UInt8) :
    readNum (if o.declen then 10 else 16) o.upper w 0 (number o w n ++ t) = some (n, t) := by
  unfold number
  cases hd : o.declen
  · rw [hd] at h
    simp only [Bool.false_eq_true, if_false] at h ⊢
    have hl := (print_length 16 (by omega) o.upper n w hw).2 h
    simp only [uinthex]
    rw [if_neg (by omega)]
    exact readNum_print 16 (by omega) (by omega) _ _ (fun k hk => digitVal_digit _ k hk) n w hl t
  · rw [hd] at h
    simp only [if_true] at h ⊢
    have hl := (print_length 10 (by omega) false n w hw).2 h
    simp only [uintJust]
    rw [if_neg (by omega), if_neg (by omega)]
    exact readNum_print 10 (by omega) (by omega) _ _ (fun k hk => digitVal_dec _ k hk) n w hl t

theorem lenSize_width (o : Opt) (n w : Nat) (hn : o.nolen = false) (h : Width o n w) : lenSize o n = w := by
  obtain ⟨h1, h2, h3⟩ := h
  unfold lenSize
  rw [hn]
  simp only [Bool.false_eq_true, if_false]
  cases hd : o.declen
  · rw [hd] at h2 h3
    simp only [Bool.false_eq_true, if_false] at h2 h3 ⊢
    have e1 := (print_length 16 (by omega) true n w (by omega)).2 h2
    rcases h3 with rfl | h3
    · split <;> omega
    · have e2 := print_length 16 (by omega) true n (w - 1) (by omega)
      split <;> omega
  · rw [hd] at h2 h3
    simp only [if_true] at h2 h3 ⊢
    have e1 := (print_length 10 (by omega) false n w (by omega)).2 h2
    rcases h3 with rfl | h3
    · split <;> omega
    · have e2 := print_length 10 (by omega) false n (w - 1) (by omega)
      split <;> omega

/-! ## Bytes -/

theorem uinthex_byte (u : Bool) (b : UInt8) (t : List UInt8) : ∃ x y, uinthex b.toNat u 2 = [x, y] ∧ skip [32, 32] ([x, y] ++ t) = none ∧ readNum 16 u 2 0 ([x, y] ++ t) = some (b.toNat, t) := by
  have key : ∀ u : Bool, ∀ k : Fin 256, (uinthex k.val u 2).length = 2 ∧ (uinthex k.val u 2).head? ≠ some 32 := by decide +kernel
  have hk := key u ⟨b.toNat, b.toNat_lt⟩
  dsimp only at hk
  have hlen := (print_length 16 (by omega) u b.toNat 2 (by omega)).2 (by have := b.toNat_lt; omega)
  have hr := readNum_print 16 (by omega) (by omega) u u (fun k hk => digitVal_digit u k hk) b.toNat 2 hlen t
  have e : uinthex b.toNat u 2 = List.replicate (2 - (print 16 u b.toNat).length) 48 ++ print 16 u b.toNat := by
    simp only [uinthex]
    rw [if_neg (by omega)]
  rw [← e] at hr
  generalize uinthex b.toNat u 2 = l at hk hr
  match l, hk, hr with
  | [x, y], hk, hr =>
    refine ⟨x, y, rfl, ?_, hr⟩
    have hx : x ≠ 32 := by simpa using hk.2
    simp only [List.cons_append, skip]
    rw [if_neg (fun h => hx h.symm)]

theorem sep_eq (o : Opt) (j : Nat) : (if j ≠ 0 then (if j % 8 = 0 then blanks (sepLen o) else blanks 1) else []) =
    (if j = 0 then [] else if 8 ∣ j then List.replicate (if o.nosects then 1 else 2) 32 else [32]) := by
  unfold blanks sepLen
  by_cases h : j = 0
  · simp [h]
  · simp only [h, ne_eq, not_false_eq_true, if_true, if_false]
    by_cases h8 : j % 8 = 0
    · rw [if_pos h8, if_pos (Nat.dvd_of_mod_eq_zero h8)]
    · rw [if_neg h8, if_neg (fun x => h8 (Nat.mod_eq_zero_of_dvd x))]
      rfl

theorem readCells_cells (o : Opt) (d : List UInt8) (off : Nat) (t : List UInt8) : ∀ n j,
    readCells (if o.nosects then 1 else 2) o.upper n j ((List.range' j n).flatMap (hexCell o d off) ++ t) = some ((List.range' j n).map (fun i => d[off + i]?), t) := by
  intro n
  induction n with
  | zero => intro j; simp [readCells]
  | succ n ih =>
    intro j
    rw [List.range'_succ, List.flatMap_cons, List.map_cons]
    have ihj := ih (j + 1)
    generalize List.flatMap (hexCell o d off) (List.range' (j + 1) n) = rest at ihj ⊢
    unfold hexCell
    rw [sep_eq]
    simp only [readCells, List.append_assoc, skip_append]
    cases hb : d[off + j]? with
    | none =>
      simp only
      rw [show blanks 2 = [32, 32] from rfl, skip_append]
      simp only
      rw [ihj]; rfl
    | some b =>
      simp only
      obtain ⟨x, y, e1, e2, e3⟩ := uinthex_byte o.upper b (rest ++ t)
      rw [e1, e2, e3]
      simp only
      rw [ihj]
      simp

theorem cells_eq (d : List UInt8) (off bpl : Nat) : (List.range bpl).map (fun i => d[off + i]?) =
    ((d.drop off).take bpl).map some ++ List.replicate (bpl - ((d.drop off).take bpl).length) none := by
  apply List.ext_getElem?
  intro i
  rw [List.getElem?_map]
  by_cases hi : i < bpl
  · rw [List.getElem?_range hi]
    simp only [Option.map_some]
    by_cases h2 : i < ((d.drop off).take bpl).length
    · rw [List.getElem?_append_left (by simpa using h2), List.getElem?_map, List.getElem?_take_of_lt hi, List.getElem?_drop]
      simp only [List.length_take, List.length_drop] at h2
      rw [List.getElem?_eq_getElem (by omega)]
      rfl
    · have h2' := h2
      simp only [List.length_take, List.length_drop] at h2
      rw [List.getElem?_append_right (by simp; omega), List.getElem?_eq_none (by omega), List.getElem?_replicate, if_pos (by simp; omega)]
  · rw [List.getElem?_eq_none (by simp; omega), List.getElem?_eq_none (by simp; omega)]
    rfl

theorem cells_bytes (l : List UInt8) (m : Nat) : (l.map some ++ List.replicate m none).filterMap id = l := by
  rw [List.filterMap_append]
  have h1 : (List.replicate m (none : Option UInt8)).filterMap id = [] := by
    rw [List.filterMap_eq_nil_iff]; intro x hx; exact (List.mem_replicate.1 hx).2
  rw [h1, List.append_nil, List.filterMap_map]
  induction l with
  | nil => rfl
  | cons b l ih => simp

theorem ascii_look (d : List UInt8) (off i : Nat) : asciiCell d off i = look (d[off + i]?) := by
  unfold asciiCell
  cases d[off + i]? with
  | none => rfl
  | some b =>
    have key : ∀ k : Fin 256, (if (UInt8.ofNat k.val ≥ 33 ∧ UInt8.ofNat k.val < 127) ∨ UInt8.ofNat k.val = 32 then UInt8.ofNat k.val else 46) = look (some (UInt8.ofNat k.val)) := by decide +kernel
    have := key ⟨b.toNat, b.toNat_lt⟩
    simpa using this

theorem hexCell_length (o : Opt) (d : List UInt8) (off i : Nat) : (hexCell o d off i).length = (if i = 0 then 0 else if i % 8 = 0 then sepLen o else 1) + 2 := by
  unfold hexCell
  rw [List.length_append]
  congr 1
  · by_cases h : i = 0
    · simp [h]
    · simp only [h, ne_eq, not_false_eq_true, if_true, if_false]
      split <;> simp [blanks]
  · cases d[off + i]? with
    | none => rfl
    | some b =>
      obtain ⟨x, y, e, _, _⟩ := uinthex_byte o.upper b []
      simp only [e]; rfl

theorem cells_length (o : Opt) (d : List UInt8) (off : Nat) : ∀ n, ((List.range (n + 1)).flatMap (hexCell o d off)).length = 3 * (n + 1) - 1 + (if o.nosects then 0 else n / 8) := by
  intro n
  induction n with
  | zero => simp [hexCell_length]
  | succ n ih =>
    rw [List.range_succ, List.flatMap_append, List.length_append, ih]
    simp only [List.flatMap_cons, List.flatMap_nil, List.append_nil, hexCell_length]
    unfold sepLen
    rw [if_neg (show ¬ n + 1 = 0 by omega)]
    cases o.nosects <;> simp only [Bool.false_eq_true, if_false, if_true] <;> split <;> omega

theorem hexSize_width (o : Opt) (bpl : Nat) (h : 1 ≤ bpl) : hexSize o bpl = hexWidth o bpl := by
  unfold hexSize hexWidth
  dsimp only
  have h8 : (bpl + 7) / 8 - 1 = (bpl - 1) / 8 := by omega
  rw [if_pos (show (bpl + 7) / 8 > 0 by omega), h8]
  cases o.nosects <;> simp only [Bool.false_eq_true, if_false, if_true] <;> split <;> omega

/-- A line without its number. -/
def body (o : Opt) (bpl : Nat) (d : List UInt8) (off : Nat) : List UInt8 :=
  (List.range bpl).flatMap (hexCell o d off) ++
  (if o.noascii then [] else blanks (sepLen o) ++ [124] ++ (List.range bpl).map (asciiCell d off) ++ [124]) ++ eol o

theorem readRow_body (o : Opt) (bpl : Nat) (hb : 1 ≤ bpl) (d : List UInt8) (off : Nat) (hoff : off < d.length) (t : List UInt8) :
    readRow o bpl (body o bpl d off ++ t) = some ((d.drop off).take bpl, t) := by
  unfold readRow body
  rw [List.append_assoc, List.append_assoc, List.range_eq_range', readCells_cells, ← List.range_eq_range', cells_eq]
  simp only [cells_bytes]
  rw [if_pos]
  · cases hna : o.noascii
    · simp only [Bool.false_eq_true, if_false]
      have : (List.range bpl).map (asciiCell d off) = (((d.drop off).take bpl).map some ++ List.replicate (bpl - ((d.drop off).take bpl).length) none).map look := by
        rw [← cells_eq, List.map_map]
        apply List.map_congr_left
        intro i _
        exact ascii_look d off i
      rw [this]
      have e : ∀ r, blanks (sepLen o) ++ [124] ++ r ++ [124] = List.replicate (if o.nosects then 1 else 2) 32 ++ 124 :: r ++ [124] := by
        intro r; simp [blanks, sepLen]
      rw [e, skip_append]
      simp only
      rw [show eol o = newline o from rfl, skip_append]
      rfl
    · simp only [if_true, List.nil_append]
      rw [show eol o = newline o from rfl, skip_append]
      rfl
  · refine ⟨trivial, ?_, ?_⟩
    · intro h
      have := congrArg List.length h
      simp at this; omega
    · intro h1
      obtain ⟨n, rfl⟩ : ∃ n, bpl = n + 1 := ⟨bpl - 1, by omega⟩
      rw [List.length_append, cells_length]
      unfold hexWidth
      simp only [Nat.add_sub_cancel]
      omega

theorem row_eq (o : Opt) (bpl : Nat) (pre : List UInt8) (len : Nat) (d : List UInt8) (off : Nat) :
    row o bpl pre len d off = pre ++ ((if o.nolen then [] else number o len off ++ blanks (sepLen o)) ++ body o bpl d off) := by
  unfold row body
  simp only [List.append_assoc]

theorem body_ne (o : Opt) (bpl : Nat) (d : List UInt8) (off : Nat) : body o bpl d off ≠ [] := by
  unfold body eol
  cases o.crlf <;> simp

theorem read_rows (o : Opt) (bpl : Nat) (hb : 1 ≤ bpl) (pre d : List UInt8) (w : Nat) (hw : Width o d.length w) (len : Nat) (hlen : o.nolen = false → len = w) : ∀ f g off,
    d.length ≤ off + f * bpl → f < g → bpl ∣ off → off ≤ d.length →
    readRows o bpl pre w g off (rows o bpl pre len d f off ++ (if o.nolen then [] else pre ++ number o len d.length)) = some (d.drop off) := by
  have hlast : ∀ g, 0 < g → readRows o bpl pre w g d.length (if o.nolen then [] else pre ++ number o len d.length) = some [] := by
    intro g hg
    obtain ⟨g, rfl⟩ : ∃ k, g = k + 1 := ⟨g - 1, by omega⟩
    simp only [readRows]
    cases hn : o.nolen
    · simp only [Bool.false_eq_true, if_false, skip_append]
      rw [hlen hn]
      have := readNum_number o d.length w (by have := hw.1; omega) hw.2.1 []
      rw [List.append_nil] at this
      rw [this]
      simp
    · simp
  intro f
  induction f with
  | zero =>
    intro g off h1 h2 h3 h4
    have : off = d.length := by omega
    subst this
    simp only [rows, List.nil_append]
    rw [hlast g (by omega)]
    simp
  | succ f ih =>
    intro g off h1 h2 h3 h4
    simp only [rows]
    rcases Nat.lt_or_ge off d.length with h5 | h5
    · rw [if_pos h5]
      obtain ⟨g, rfl⟩ : ∃ k, g = k + 1 := ⟨g - 1, by omega⟩
      have hrest : readRows o bpl pre w g (off + ((d.drop off).take bpl).length) (rows o bpl pre len d f (off + bpl) ++ (if o.nolen then [] else pre ++ number o len d.length)) = some (d.drop (off + bpl)) := by
        rcases Nat.lt_or_ge (off + bpl) d.length with h6 | h6
        · have e : ((d.drop off).take bpl).length = bpl := by simp; omega
          rw [e]
          refine ih g (off + bpl) ?_ (by omega) (Nat.dvd_add h3 (Nat.dvd_refl _)) (by omega)
          rw [Nat.succ_mul] at h1
          omega
        · have e : off + ((d.drop off).take bpl).length = d.length := by simp; omega
          rw [e]
          have e2 : rows o bpl pre len d f (off + bpl) = [] := by
            cases f with
            | zero => rfl
            | succ f => simp only [rows]; rw [if_neg (by omega)]
          rw [e2, List.nil_append, hlast g (by omega), List.drop_eq_nil_of_le h6]
      have hcat : (d.drop off).take bpl ++ d.drop (off + bpl) = d.drop off := by
        rw [← List.drop_drop]; exact List.take_append_drop _ _
      rw [row_eq]
      simp only [readRows]
      cases hn : o.nolen
      · rw [hn] at hrest
        simp only [Bool.false_eq_true, if_false, List.append_assoc, skip_append] at hrest ⊢
        rw [hlen hn] at hrest ⊢
        have hoffw : off < (if o.declen then 10 else 16) ^ w := Nat.lt_of_le_of_lt h4 hw.2.1
        rw [readNum_number o off w (by have := hw.1; omega) hoffw]
        simp only [ne_eq, not_true, if_false]
        rw [if_neg (by have := body_ne o bpl d off; simp [this])]
        rw [show blanks (sepLen o) = List.replicate (if o.nosects then 1 else 2) 32 from rfl, skip_append]
        simp only
        rw [readRow_body o bpl hb d off h5]
        simp only [if_pos h3, hrest, Option.map_some, hcat]
      · rw [hn] at hrest
        simp only [if_true, List.append_assoc, List.nil_append, skip_append, List.append_nil] at hrest ⊢
        rw [if_neg (by have := body_ne o bpl d off; simp [this])]
        rw [readRow_body o bpl hb d off h5]
        simp only [if_pos h3, hrest, Option.map_some, hcat]
    · rw [if_neg (by omega)]
      have : off = d.length := by omega
      subst this
      rw [List.nil_append, hlast g (by omega)]
      simp

theorem rows_length (o : Opt) (bpl : Nat) (hb : 1 ≤ bpl) (pre : List UInt8) (len : Nat) (d : List UInt8) : ∀ f off, d.length ≤ off + f → d.length ≤ off + (rows o bpl pre len d f off).length := by
  intro f
  induction f with
  | zero => intro off h; simp only [rows, List.length_nil]; omega
  | succ f ih =>
    intro off h
    simp only [rows]
    split
    · have h1 := ih (off + bpl) (by omega)
      rw [List.length_append]
      have h2 : bpl ≤ (row o bpl pre len d off).length := by
        rw [row_eq]
        obtain ⟨n, rfl⟩ : ∃ n, bpl = n + 1 := ⟨bpl - 1, by omega⟩
        unfold body
        simp only [List.length_append, cells_length]; omega
      omega
    · omega

/-! ## The header -/

theorem center_some {s : List UInt8} {w : Nat} {p : UInt8} (h : s.length ≤ w) : center s w p = some (List.replicate ((w - s.length) / 2) p ++ s ++ List.replicate (w - s.length - (w - s.length) / 2) p) := by
  unfold center
  rw [if_neg (by omega)]

theorem center_nil (w : Nat) (p : UInt8) : center [] w p = some (List.replicate w p) := by
  rw [center_some (by simp)]
  simp only [List.length_nil, Nat.sub_zero, List.append_nil, List.replicate_append_replicate]
  congr 2; omega

theorem middle_center {s : List UInt8} {w : Nat} (h : s.length ≤ w) : Middle s w (List.replicate ((w - s.length) / 2) 32 ++ s ++ List.replicate (w - s.length - (w - s.length) / 2) 32) :=
  ⟨_, _, rfl, by omega, by omega, by omega⟩

theorem center_inv {s r : List UInt8} {w : Nat} (h : center s w 32 = some r) : Middle s w r := by
  unfold center at h
  split at h
  · cases h
  · rename_i hl
    injection h with h
    subst h
    exact middle_center (by omega)

theorem head_inv (o : Opt) (bpl : Nat) (hb : 1 ≤ bpl) (pre : List UInt8) (len w : Nat) (h4 : 4 ≤ w) (hlen : o.nolen = false → len = w) (hd : List UInt8) (ho : o.header = true)
    (h : head o bpl pre len = some hd) : Header o bpl pre w hd := by
  unfold head at h
  rw [ho] at h
  simp only [if_true] at h
  rw [Option.bind_eq_some_iff] at h
  obtain ⟨a, ha, h⟩ := h
  rw [Option.map_eq_some_iff] at h
  obtain ⟨b, hbb, rfl⟩ := h
  unfold titles at ha
  unfold ruler at hbb
  rw [hexSize_width o bpl hb] at ha hbb
  rw [Option.bind_eq_some_iff] at ha hbb
  obtain ⟨a1, ha1, ha⟩ := ha
  obtain ⟨b1, hb1, hbb⟩ := hbb
  rw [Option.bind_eq_some_iff] at ha hbb
  obtain ⟨a2, ha2, ha⟩ := ha
  obtain ⟨b2, hb2, hbb⟩ := hbb
  rw [Option.map_eq_some_iff] at ha hbb
  obtain ⟨a3, ha3, rfl⟩ := ha
  obtain ⟨b3, hb3, rfl⟩ := hbb
  rw [center_nil] at hb2
  injection hb2 with hb2
  subst hb2
  have hl4 : (if o.declen then [76, 69, 78] else [65, 68, 68, 82] : List UInt8).length ≤ w := by
    cases o.declen <;> simp <;> omega
  have A : ∃ x, Middle (if o.declen then [76, 69, 78] else [65, 68, 68, 82]) w x ∧ a1 = if o.nolen then [] else x ++ List.replicate (if o.nosects then 1 else 2) 32 := by
    unfold lenCol at ha1
    cases hn : o.nolen
    · rw [hn, hlen hn] at ha1
      simp only [Bool.false_eq_true, if_false, Option.map_eq_some_iff] at ha1 ⊢
      obtain ⟨x, hx, e⟩ := ha1
      exact ⟨x, center_inv hx, e.symm⟩
    · rw [hn] at ha1
      simp only [if_true, Option.some.injEq] at ha1 ⊢
      exact ⟨_, middle_center hl4, ha1.symm⟩
  have B : b1 = if o.nolen then [] else List.replicate w 61 ++ List.replicate (if o.nosects then 1 else 2) 32 := by
    unfold lenCol at hb1
    cases hn : o.nolen
    · rw [hn, hlen hn] at hb1
      simp only [Bool.false_eq_true, if_false, center_nil, Option.map_some, Option.some.injEq] at hb1 ⊢
      exact hb1.symm
    · rw [hn] at hb1
      simp only [if_true, Option.some.injEq] at hb1 ⊢
      exact hb1.symm
  have C : ∃ x, (o.noascii = false → Middle [65, 83, 67, 73, 73] (bpl + 2) x) ∧ a3 = if o.noascii then [] else List.replicate (if o.nosects then 1 else 2) 32 ++ x := by
    unfold asciiCol asciiSize at ha3
    cases hn : o.noascii
    · rw [hn] at ha3
      simp only [Bool.false_eq_true, if_false, Option.map_eq_some_iff] at ha3 ⊢
      obtain ⟨x, hx, e⟩ := ha3
      exact ⟨x, fun _ => center_inv hx, e.symm⟩
    · rw [hn] at ha3
      simp only [if_true, Option.some.injEq] at ha3 ⊢
      exact ⟨[], nofun, ha3.symm⟩
  have D : b3 = if o.noascii then [] else List.replicate (if o.nosects then 1 else 2) 32 ++ List.replicate (bpl + 2) 61 := by
    unfold asciiCol asciiSize at hb3
    cases hn : o.noascii
    · rw [hn] at hb3
      simp only [Bool.false_eq_true, if_false, center_nil, Option.map_some, Option.some.injEq] at hb3 ⊢
      exact hb3.symm
    · rw [hn] at hb3
      simp only [if_true, Option.some.injEq] at hb3 ⊢
      exact hb3.symm
  obtain ⟨x, hx, rfl⟩ := A
  obtain ⟨y, hy, rfl⟩ := C
  subst B D
  exact ⟨x, a2, y, hx, center_inv ha2, hy, rfl⟩

theorem head_some (o : Opt) (bpl : Nat) (hb : 1 ≤ bpl) (pre : List UInt8) (len : Nat) (h4 : o.nolen = false → 4 ≤ len) : (∃ t, head o bpl pre len = some t) ↔ (o.header = false ∨ o.noascii = true ∨ 3 ≤ bpl) := by
  unfold head
  cases ho : o.header
  · simp
  · simp only [if_true, false_or, Bool.true_eq_false]
    have hx : ([72, 69, 88] : List UInt8).length ≤ hexWidth o bpl := by unfold hexWidth; simp; omega
    have e1 : ∃ x, lenCol o (if o.declen then [76, 69, 78] else [65, 68, 68, 82]) len 32 = some x := by
      unfold lenCol
      cases hn : o.nolen
      · have := h4 hn
        rw [center_some (by cases o.declen <;> simp <;> omega)]
        exact ⟨_, rfl⟩
      · exact ⟨_, rfl⟩
    have e2 : ∃ x, lenCol o [] len 61 = some x := by
      unfold lenCol
      rw [center_nil]
      cases o.nolen <;> exact ⟨_, rfl⟩
    have e3 : ∃ x, asciiCol o bpl [] 61 = some x := by
      unfold asciiCol
      rw [center_nil]
      cases o.noascii <;> exact ⟨_, rfl⟩
    obtain ⟨x1, e1⟩ := e1
    obtain ⟨x2, e2⟩ := e2
    obtain ⟨x3, e3⟩ := e3
    unfold titles ruler
    rw [hexSize_width o bpl hb, e1, e2, e3, center_nil, center_some hx]
    simp only [Option.bind_some, Option.map_some]
    unfold asciiCol asciiSize
    cases hn : o.noascii
    · simp only [Bool.false_eq_true, if_false, false_or]
      rcases Nat.lt_or_ge bpl 3 with h | h
      · have : center [65, 83, 67, 73, 73] (bpl + 2) 32 = none := by unfold center; rw [if_pos (by simp; omega)]
        rw [this]
        simp; omega
      · rw [center_some (by simp; omega)]
        simp [h]
    · simp

end Verif.Hexdump
