import Verif.Buf.Model
/- Helper lemmas about the byte buffer: what each operation does to a buffer that holds given bytes. -/
namespace Verif.Buf

theorem wr_mid (p o q bs : List UInt8) (i : Nat) (hi : i = p.length) (h : o.length = bs.length) :
    wr (p ++ (o ++ q)) i bs = some (p ++ (bs ++ q)) := by
  subst hi
  unfold wr
  rw [if_pos (by simp only [List.length_append]; omega)]
  have h1 : (p ++ (o ++ q)).take p.length = p := by simp
  have h2 : (p ++ (o ++ q)).drop (p.length + bs.length) = q := by
    rw [← h, ← List.append_assoc, ← List.length_append, List.drop_left]
  rw [h1, h2, List.append_assoc]

theorem rd_mid (p o q : List UInt8) (i n : Nat) (hi : i = p.length) (h : n = o.length) : rd (p ++ (o ++ q)) i n = some o := by
  subst hi h
  unfold rd
  rw [if_pos (by simp only [List.length_append]; omega)]
  simp

/-- Allocation sizes that can occur. -/
def Cap (s : Nat) : Prop := s = 0 ∨ ∃ k, k ≤ 53 ∧ s = 1024 * 2 ^ k

/-- A non-empty allocation that holds `v` and has room for `n` more bytes and a terminator; the terminator is there if
`v` is not empty, and also for an empty `v` if `t` is set. -/
def Holds (t : Bool) (b : Buf) (v : List UInt8) (n : Nat) : Prop := ∃ pre post, b.data = pre ++ (v ++ post) ∧ b.cons = pre.length ∧ b.len = v.length ∧
  b.size + 1 = pre.length + v.length + post.length ∧ n + 1 ≤ post.length ∧ (t = true ∨ v ≠ [] → post.head? = some 0)

/-- The buffer holds `v`. -/
def Rep (t : Bool) (b : Buf) (v : List UInt8) : Prop := Cap b.size ∧ ((b = create ∧ v = []) ∨ Holds t b v 0)

theorem Cap.le {s : Nat} (h : Cap s) : s ≤ 9223372036854775808 := by
  rcases h with h | ⟨k, hk, h⟩
  · omega
  · have : 2 ^ k ≤ 2 ^ 53 := Nat.pow_le_pow_right (by omega) hk
    omega

theorem Holds.weaken {t : Bool} {b : Buf} {v : List UInt8} {n m : Nat} (h : Holds t b v n) (hm : m ≤ n) : Holds t b v m := by
  obtain ⟨pre, post, h1, h2, h3, h4, h5, h6⟩ := h
  exact ⟨pre, post, h1, h2, h3, h4, by omega, h6⟩

theorem Holds.forget {t : Bool} {b : Buf} {v : List UInt8} {n : Nat} (h : Holds t b v n) : Holds false b v n := by
  obtain ⟨pre, post, h1, h2, h3, h4, h5, h6⟩ := h
  exact ⟨pre, post, h1, h2, h3, h4, h5, fun h => h6 (Or.inr (by rcases h with h | h <;> simp_all))⟩

theorem Rep.forget {t : Bool} {b : Buf} {v : List UInt8} (h : Rep t b v) : Rep false b v :=
  ⟨h.1, h.2.imp id Holds.forget⟩

theorem Rep.len {t : Bool} {b : Buf} {v : List UInt8} (h : Rep t b v) : b.len = v.length := by
  rcases h.2 with ⟨h, h2⟩ | ⟨pre, post, h1, h2, h3, h4, h5, h6⟩
  · subst h h2; rfl
  · exact h3

theorem Rep.fit {t : Bool} {b : Buf} {v : List UInt8} (h : Rep t b v) : b.cons + b.len ≤ b.size := by
  rcases h.2 with ⟨h, h2⟩ | ⟨pre, post, h1, h2, h3, h4, h5, h6⟩
  · subst h; decide
  · omega

theorem consume_rep {t : Bool} {b : Buf} {v : List UInt8} (h : Rep t b v) : ∃ b', consume b = some b' ∧ Rep t b' v ∧ b'.cons = 0 ∧ b'.size = b.size := by
  obtain ⟨hc, ⟨h, h2⟩ | ⟨pre, post, h1, h2, h3, h4, h5, h6⟩⟩ := h
  · subst h h2
    exact ⟨create, rfl, ⟨hc, Or.inl ⟨rfl, rfl⟩⟩, rfl, rfl⟩
  · unfold consume
    by_cases h0 : b.cons = 0
    · rw [if_pos h0]
      exact ⟨b, rfl, ⟨hc, Or.inr ⟨pre, post, h1, h2, h3, h4, h5, h6⟩⟩, h0, rfl⟩
    · rw [if_neg h0]
      -- the moved data
      have hsplit : ∃ d, (if b.len = 0 then some b.data else (rd b.data b.cons b.len).bind (wr b.data 0)) = some d ∧
          ∃ post', d = v ++ post' ∧ post'.length = pre.length + post.length := by
        by_cases hl : b.len = 0
        · rw [if_pos hl]
          have hv : v = [] := List.length_eq_zero_iff.mp (by omega)
          subst hv
          refine ⟨b.data, rfl, b.data, rfl, ?_⟩
          rw [h1]; simp only [List.length_append, List.length_nil]; omega
        · rw [if_neg hl, h1, rd_mid pre v post _ _ h2 h3]
          rw [Option.bind_some]
          have hlen : v.length ≤ (pre ++ (v ++ post)).length := by simp only [List.length_append]; omega
          have e : pre ++ (v ++ post) = [] ++ ((pre ++ (v ++ post)).take v.length ++ (pre ++ (v ++ post)).drop v.length) := by
            rw [List.take_append_drop, List.nil_append]
          refine ⟨v ++ (pre ++ (v ++ post)).drop v.length, ?_, _, rfl, ?_⟩
          · conv => lhs; rw [e]
            rw [wr_mid [] _ _ v 0 rfl (by rw [List.length_take, Nat.min_eq_left hlen]), List.nil_append]
          · rw [List.length_drop]; simp only [List.length_append]; omega
      obtain ⟨d, hd, post', hp, hl⟩ := hsplit
      rw [hd, Option.bind_some, hp]
      obtain ⟨x, post2, rfl⟩ : ∃ x post2, post' = x :: post2 := by
        cases post' with
        | nil => simp only [List.length_nil] at hl; omega
        | cons x y => exact ⟨x, y, rfl⟩
      have e : v ++ x :: post2 = v ++ ([x] ++ post2) := rfl
      rw [e, wr_mid v [x] post2 [0] _ h3 rfl, Option.map_some]
      refine ⟨_, rfl, ⟨hc, Or.inr ⟨[], 0 :: post2, rfl, rfl, h3, ?_, by simp, fun _ => rfl⟩⟩, rfl, rfl⟩
      simp only [List.length_cons] at hl
      show b.size + 1 = _
      simp only [List.length_nil, List.length_cons]
      omega

theorem growLoop_cap (needed curr : Nat) (hn : needed ≤ 9223372036854775808) : ∀ f k, k ≤ 53 → f + k ≥ 54 → curr ≤ 1024 * 2 ^ k →
    ∃ s, growLoop needed curr f (1024 * 2 ^ k) = some s ∧ Cap s ∧ needed ≤ s ∧ 0 < s ∧ 1024 * 2 ^ k ≤ s := by
  intro f
  induction f with
  | zero => intro k hk hf; omega
  | succ f ih =>
    intro k hk hf hc
    unfold growLoop
    by_cases h : needed > 1024 * 2 ^ k
    · rw [if_pos h]
      have hk' : k < 53 := by
        apply Classical.byContradiction; intro hge
        have : k = 53 := by omega
        subst this
        omega
      have e2 : 1024 * 2 ^ k * 2 = 1024 * 2 ^ (k + 1) := by rw [Nat.pow_succ]; omega
      have hb : 2 ^ (k + 1) ≤ 2 ^ 53 := Nat.pow_le_pow_right (by omega) (by omega)
      have hmod : 1024 * 2 ^ k * 2 % W = 1024 * 2 ^ (k + 1) := by
        rw [e2]
        apply Nat.mod_eq_of_lt
        unfold W; omega
      rw [hmod]
      have hle : 1024 * 2 ^ k ≤ 1024 * 2 ^ (k + 1) := by omega
      rw [if_neg (by omega)]
      obtain ⟨s, h1, h2, h3, h4, h5⟩ := ih (k + 1) (by omega) (by omega) (by omega)
      exact ⟨s, h1, h2, h3, h4, by omega⟩
    · rw [if_neg h]
      have : 0 < 2 ^ k := Nat.two_pow_pos k
      exact ⟨_, rfl, Or.inr ⟨k, hk, rfl⟩, by omega, by omega, by omega⟩

theorem nextSize_cap {needed curr : Nat} (hn : needed ≤ 9223372036854775808) (hc : Cap curr) :
    ∃ s, nextSize 64 needed curr = some s ∧ Cap s ∧ needed ≤ s ∧ 0 < s ∧ curr ≤ s := by
  unfold nextSize
  rcases hc with h | ⟨k, hk, h⟩
  · subst h
    rw [if_pos rfl]
    obtain ⟨s, h1, h2, h3, h4, h5⟩ := growLoop_cap needed 0 hn 64 0 (by omega) (by omega) (by omega)
    exact ⟨s, h1, h2, h3, h4, by omega⟩
  · have : 0 < 2 ^ k := Nat.two_pow_pos k
    rw [if_neg (by omega), h]
    exact growLoop_cap needed _ hn 64 k hk (by omega) (by omega)

theorem enlarge_rep (g : Nat → UInt8) {t : Bool} {b : Buf} {v : List UInt8} {n : Nat} (h : Rep t b v) (hcons : b.cons = 0)
    (hn : v.length + n ≤ 9223372036854775808) (h0 : 0 < n) :
    ∃ b', enlarge g (v.length + n) b = some (b', true) ∧ Cap b'.size ∧ Holds false b' v n ∧ b'.cons = 0 := by
  unfold enlarge
  by_cases hg : v.length + n > b.size
  · rw [if_pos hg]
    obtain ⟨s, e, hs, hns, hpos, hcs⟩ := nextSize_cap hn h.1
    rw [e, Option.map_some, if_neg (by omega)]
    have hl := h.len
    refine ⟨_, rfl, hs, ?_, hcons⟩
    rcases h.2 with ⟨hb, hv⟩ | ⟨pre, post, h1, h2, h3, h4, h5, h6⟩
    · subst hb hv
      refine ⟨[], (List.range (s + 1)).map g, ?_, rfl, rfl, ?_, ?_, by simp⟩
      · show realloc g [] (s + 1) = _
        rfl
      · show s + 1 = _
        simp
      · simp only [List.length_map, List.length_range, List.length_nil] at *; omega
    · refine ⟨pre, post ++ (List.range (s + 1 - b.data.length)).map g, ?_, h2, h3, ?_, ?_, ?_⟩
      · show realloc g b.data (s + 1) = _
        unfold realloc
        rw [h1]; simp only [List.append_assoc]
      · show s + 1 = _
        rw [h1]
        simp only [List.length_append, List.length_map, List.length_range]
        omega
      · rw [h1]
        simp only [List.length_append, List.length_map, List.length_range]
        omega
      · intro hv
        have hp := h6 (Or.inr (by rcases hv with hv | hv <;> simp_all))
        cases post with
        | nil => simp at hp
        | cons x xs => exact hp
  · rw [if_neg hg]
    have hl := h.len
    rcases h.2 with ⟨hb, hv⟩ | hh
    · subst hb hv; exact absurd hg (by show ¬ ¬ (0 + n > 0); omega)
    · refine ⟨b, rfl, h.1, ?_, hcons⟩
      obtain ⟨pre, post, h1, h2, h3, h4, h5, h6⟩ := hh.forget
      exact ⟨pre, post, h1, h2, h3, h4, by omega, h6⟩

theorem ensure_rep (g : Nat → UInt8) {t : Bool} {b : Buf} {v : List UInt8} {n : Nat} (h : Rep t b v)
    (hn : v.length + n ≤ 9223372036854775808) (h0 : 0 < n) :
    ∃ b', ensureSpace g b n = some (b', true) ∧ Cap b'.size ∧ Holds false b' v n ∧ (b'.cons = b.cons ∨ b'.cons = 0) := by
  unfold ensureSpace
  have hl := h.len
  have hf := h.fit
  have hs := h.1.le
  have e1 : (b.len + n) % W = v.length + n := by rw [hl]; apply Nat.mod_eq_of_lt; unfold W; omega
  have e2 : (b.size + W - b.cons) % W = b.size - b.cons := by
    have : b.size + W - b.cons = (b.size - b.cons) + W := by unfold W; omega
    rw [this, Nat.add_mod_right]; apply Nat.mod_eq_of_lt; unfold W; omega
  rw [e1, e2]
  by_cases hlt : v.length + n < b.size - b.cons
  · rw [if_pos hlt]
    rcases h.2 with ⟨hb, hv⟩ | hh
    · subst hb; exact absurd hlt (by show ¬ (_ < 0 - 0); omega)
    · refine ⟨b, rfl, h.1, ?_, Or.inl rfl⟩
      obtain ⟨pre, post, h1, h2, h3, h4, h5, h6⟩ := hh.forget
      exact ⟨pre, post, h1, h2, h3, h4, by omega, h6⟩
  · rw [if_neg hlt]
    obtain ⟨b1, e, hr, hc, _⟩ := consume_rep h
    rw [e, Option.bind_some]
    obtain ⟨b', e', hcap, hh, hz⟩ := enlarge_rep g hr hc hn h0
    exact ⟨b', e', hcap, hh, Or.inr hz⟩

theorem split_at (l : List UInt8) (n : Nat) (h : n ≤ l.length) : ∃ x y, l = x ++ y ∧ x.length = n :=
  ⟨l.take n, l.drop n, (List.take_append_drop n l).symm, by rw [List.length_take]; omega⟩

/-- A buffer with `bs` stored behind `v`. -/
theorem append_data {t : Bool} {b : Buf} {v bs : List UInt8} (h : Holds t b v bs.length) :
    ∃ b' pre post, append b bs = some b' ∧ b'.data = pre ++ (v ++ (bs ++ 0 :: post)) ∧ b'.cons = pre.length ∧ b'.cons = b.cons ∧
      b'.len = v.length + bs.length ∧ b'.size = b.size ∧ b'.size + 1 = pre.length + v.length + bs.length + 1 + post.length := by
  obtain ⟨pre, post, h1, h2, h3, h4, h5, h6⟩ := h
  obtain ⟨x, y, rfl, hx⟩ := split_at post (bs.length + 1) h5
  obtain ⟨x1, x2, rfl, hx1⟩ := split_at x bs.length (by omega)
  have hx2 : x2.length = 1 := by rw [List.length_append] at hx; omega
  unfold append
  have e1 : b.data = (pre ++ v) ++ (x1 ++ (x2 ++ y)) := by rw [h1]; simp only [List.append_assoc]
  rw [e1, wr_mid (pre ++ v) x1 (x2 ++ y) bs _ (by rw [List.length_append]; omega) hx1, Option.bind_some]
  have e2 : (pre ++ v) ++ (bs ++ (x2 ++ y)) = (pre ++ v ++ bs) ++ (x2 ++ y) := by simp only [List.append_assoc]
  rw [e2, wr_mid (pre ++ v ++ bs) x2 y [0] _ (by simp only [List.length_append]; omega) hx2, Option.map_some]
  refine ⟨_, pre, y, rfl, ?_, h2, rfl, ?_, rfl, ?_⟩
  · simp only [List.append_assoc, List.cons_append, List.nil_append]
  · show b.len + bs.length = _
    omega
  · show b.size + 1 = _
    simp only [List.length_append] at h4 hx
    omega

theorem append_rep {t : Bool} {b : Buf} {v bs : List UInt8} (hc : Cap b.size) (h : Holds t b v bs.length) :
    ∃ b', append b bs = some b' ∧ Rep true b' (v ++ bs) ∧ b'.cons = b.cons := by
  obtain ⟨b', pre, post, e, h1, h2, h2', h3, hs, h4⟩ := append_data h
  refine ⟨b', e, ⟨hs ▸ hc, Or.inr ⟨pre, 0 :: post, ?_, h2, ?_, ?_, by simp, fun _ => rfl⟩⟩, h2'⟩
  · rw [h1, List.append_assoc]
  · rw [List.length_append]; exact h3
  · simp only [List.length_append, List.length_cons]; omega

/-! ### Transformations -/

/-- The state between two transformations: `bs` is what is left of the added bytes. -/
def Mid (pre v : List UInt8) (size total : Nat) (s : Buf × Nat) (bs : List UInt8) : Prop :=
  ∃ post, s.1.data = pre ++ (v ++ (bs ++ 0 :: post)) ∧ s.1.cons = pre.length ∧ s.1.len = v.length + bs.length ∧ s.2 = bs.length ∧
    s.1.size = size ∧ bs.length + post.length = total

theorem round_map (pre v : List UInt8) {size total : Nat} {s : Buf × Nat} {bs : List UInt8} (h : Mid pre v size total s bs) (on : Bool) (f : UInt8 → UInt8) (off : Nat)
    (hoff : off = pre.length + v.length) :
    ∃ s', trRound on (fun d k => (mapAt d off k f).map (·, k)) off s = some s' ∧ Mid pre v size total s' (if on then bs.map f else bs) := by
  obtain ⟨post, h1, h2, h3, h4, h5, h6⟩ := h
  unfold trRound
  by_cases hz : s.2 = 0 ∨ on = false
  · rw [if_pos hz]
    refine ⟨s, rfl, ?_⟩
    have : (if on = true then bs.map f else bs) = bs := by
      rcases hz with hz | hz
      · have : bs = [] := List.length_eq_zero_iff.mp (by omega)
        subst this; cases on <;> rfl
      · subst hz; rfl
    rw [this]
    exact ⟨post, h1, h2, h3, h4, h5, h6⟩
  · rw [if_neg hz]
    have hon : on = true := by cases on <;> simp_all
    subst hon
    have e1 : s.1.data = (pre ++ v) ++ (bs ++ 0 :: post) := by rw [h1]; simp only [List.append_assoc]
    have em : mapAt s.1.data off s.2 f = some (pre ++ (v ++ (bs.map f ++ 0 :: post))) := by
      unfold mapAt
      rw [e1, rd_mid (pre ++ v) bs _ _ _ (by rw [List.length_append]; exact hoff) h4, Option.bind_some,
        wr_mid (pre ++ v) bs _ (bs.map f) _ (by rw [List.length_append]; exact hoff) (by simp)]
      simp only [List.append_assoc]
    simp only [em, Option.map_some, Option.bind_some, if_true]
    exact ⟨_, rfl, post, rfl, h2, by simpa using h3, by simpa using h4, h5, by simpa using h6⟩

theorem scan_spec (bs : List UInt8) (rest : List UInt8) (hr : rest.head? = some 0) : scan (bs ++ rest) = some (bs.length - (bs.dropWhile Chr.isSpace).length) := by
  induction bs with
  | nil =>
    cases rest with
    | nil => simp at hr
    | cons x xs =>
      simp at hr; subst hr
      rfl
  | cons c cs ih =>
    rw [List.cons_append, scan, List.dropWhile_cons]
    cases h : Chr.isSpace c
    · simp
    · simp only [if_true]
      rw [ih, Option.map_some]
      have : (cs.dropWhile Chr.isSpace).length ≤ cs.length := (List.dropWhile_sublist _).length_le
      simp only [List.length_cons]
      congr 1; omega

theorem dropWhile_eq_drop (bs : List UInt8) (p : UInt8 → Bool) : bs.dropWhile p = bs.drop (bs.length - (bs.dropWhile p).length) := by
  have h := List.takeWhile_append_dropWhile (p := p) (l := bs)
  have hl : bs.length - (bs.dropWhile p).length = (bs.takeWhile p).length := by
    have := congrArg List.length h
    rw [List.length_append] at this; omega
  rw [hl]
  conv => rhs; arg 2; rw [← h]
  rw [List.drop_left]

theorem round_ltrim (pre v : List UInt8) {size total : Nat} {s : Buf × Nat} {bs : List UInt8} (h : Mid pre v size total s bs) (on : Bool) (off : Nat)
    (hoff : off = pre.length + v.length) :
    ∃ s', trRound on (fun d k => ltrimAt d off k) off s = some s' ∧ Mid pre v size total s' (if on then bs.dropWhile Chr.isSpace else bs) := by
  obtain ⟨post, h1, h2, h3, h4, h5, h6⟩ := h
  unfold trRound
  by_cases hz : s.2 = 0 ∨ on = false
  · rw [if_pos hz]
    refine ⟨s, rfl, ?_⟩
    have : (if on = true then bs.dropWhile Chr.isSpace else bs) = bs := by
      rcases hz with hz | hz
      · have : bs = [] := List.length_eq_zero_iff.mp (by omega)
        subst this; cases on <;> rfl
      · subst hz; rfl
    rw [this]
    exact ⟨post, h1, h2, h3, h4, h5, h6⟩
  · rw [if_neg hz]
    have hon : on = true := by cases on <;> simp_all
    subst hon
    simp only [if_true]
    have e1 : s.1.data = (pre ++ v) ++ (bs ++ 0 :: post) := by rw [h1]; simp only [List.append_assoc]
    have hdrop : s.1.data.drop off = bs ++ 0 :: post := by
      rw [e1, hoff, ← List.length_append, List.drop_left]
    have hle : (bs.dropWhile Chr.isSpace).length ≤ bs.length := (List.dropWhile_sublist _).length_le
    have hdw := dropWhile_eq_drop bs Chr.isSpace
    generalize hi : bs.length - (bs.dropWhile Chr.isSpace).length = i at *
    unfold ltrimAt
    rw [hdrop, scan_spec bs (0 :: post) rfl, hi, Option.bind_some]
    by_cases hi0 : i = 0
    · rw [if_pos hi0, Option.bind_some, if_pos rfl]
      rw [hi0, List.drop_zero] at hdw
      rw [hdw]
      exact ⟨_, rfl, post, h1, h2, h3, h4, h5, h6⟩
    · rw [if_neg hi0, if_neg (by omega)]
      -- the bytes before and after the move
      have eb : bs = bs.take i ++ bs.drop i := (List.take_append_drop i bs).symm
      have e2 : s.1.data = (pre ++ v ++ bs.take i) ++ (bs.drop i ++ 0 :: post) := by
        rw [e1]; conv => lhs; rw [eb]
        simp only [List.append_assoc]
      have hrd : rd s.1.data (off + i) (s.2 - i) = some (bs.drop i) := by
        rw [e2]
        apply rd_mid
        · simp only [List.length_append, List.length_take]; omega
        · rw [List.length_drop]; omega
      have hnl : (bs.drop i).length ≤ (bs ++ 0 :: post).length := by rw [List.length_drop, List.length_append]; omega
      obtain ⟨x, y, exy, hx⟩ := split_at (bs ++ 0 :: post) (bs.drop i).length hnl
      have hwr : wr s.1.data off (bs.drop i) = some ((pre ++ v) ++ (bs.drop i ++ y)) := by
        rw [e1, exy]
        exact wr_mid _ _ _ _ _ (by rw [List.length_append]; exact hoff) hx
      rw [hrd, Option.bind_some, hwr, Option.map_some, Option.bind_some]
      have hyl : y.length = i + 1 + post.length := by
        have := congrArg List.length exy
        simp only [List.length_append, List.length_cons, List.length_drop] at this hx
        omega
      cases y with
      | nil => simp only [List.length_nil] at hyl; omega
      | cons y0 y =>
        simp only [if_neg (show ¬ (s.2 - i = s.2) by omega)]
        have e3 : (pre ++ v) ++ (bs.drop i ++ y0 :: y) = (pre ++ v ++ bs.drop i) ++ ([y0] ++ y) := by simp only [List.append_assoc, List.cons_append, List.nil_append]
        rw [e3, wr_mid (pre ++ v ++ bs.drop i) [y0] y [0] _ (by simp only [List.length_append, List.length_drop]; omega) rfl, Option.map_some]
        refine ⟨_, rfl, y, ?_, h2, ?_, ?_, h5, ?_⟩
        · rw [hdw]; simp only [List.append_assoc, List.cons_append, List.nil_append]
        · show (if s.2 - i > s.2 then _ else _) = _
          rw [if_neg (by omega)]
          omega
        · show s.2 - i = _
          omega
        · simp only [List.length_cons] at hyl; omega

/-- What is left when the blanks at the end are removed. -/
def rtrimmed (bs : List UInt8) : List UInt8 := (bs.reverse.dropWhile Chr.isSpace).reverse

theorem rtrimmed_snoc (bs : List UInt8) (c : UInt8) : rtrimmed (bs ++ [c]) = if Chr.isSpace c then rtrimmed bs else bs ++ [c] := by
  unfold rtrimmed
  rw [List.reverse_append, List.reverse_singleton, List.singleton_append, List.dropWhile_cons]
  cases Chr.isSpace c
  · simp
  · simp

theorem rtrimAt_spec (p : List UInt8) (rest : List UInt8) (off : Nat) (hoff : off = p.length) : ∀ n (bs : List UInt8), n = bs.length →
    rtrimAt (p ++ (bs ++ rest)) off n = some (rtrimmed bs).length ∧ ∃ tl, bs = rtrimmed bs ++ tl := by
  intro n
  induction n generalizing rest with
  | zero =>
    intro bs hb
    have : bs = [] := List.length_eq_zero_iff.mp hb.symm
    subst this
    exact ⟨rfl, [], rfl⟩
  | succ n ih =>
    intro bs hb
    have hne : bs ≠ [] := by intro e; subst e; simp at hb
    obtain ⟨init, c, rfl⟩ : ∃ init c, bs = init ++ [c] := ⟨bs.dropLast, bs.getLast hne, (List.dropLast_concat_getLast hne).symm⟩
    have hn : n = init.length := by simpa using hb
    unfold rtrimAt
    have hget : (p ++ ((init ++ [c]) ++ rest))[off + n]? = some c := by
      rw [List.getElem?_append_right (by omega), List.append_assoc, List.getElem?_append_right (by omega)]
      have : off + n - p.length - init.length = 0 := by omega
      rw [this]; rfl
    rw [hget, Option.bind_some, rtrimmed_snoc]
    cases hs : Chr.isSpace c
    · simp only [Bool.false_eq_true, if_false]
      exact ⟨by simp [hn], [], by simp⟩
    · simp only [if_true]
      obtain ⟨h1, tl, h2⟩ := ih ([c] ++ rest) init hn
      refine ⟨?_, tl ++ [c], ?_⟩
      · rw [List.append_assoc]; exact h1
      · rw [← List.append_assoc, ← h2]

theorem round_rtrim (pre v : List UInt8) {size total : Nat} {s : Buf × Nat} {bs : List UInt8} (h : Mid pre v size total s bs) (on : Bool) (off : Nat)
    (hoff : off = pre.length + v.length) :
    ∃ s', trRound on (fun d k => (rtrimAt d off k).map (d, ·)) off s = some s' ∧ Mid pre v size total s' (if on then rtrimmed bs else bs) := by
  obtain ⟨post, h1, h2, h3, h4, h5, h6⟩ := h
  unfold trRound
  by_cases hz : s.2 = 0 ∨ on = false
  · rw [if_pos hz]
    refine ⟨s, rfl, ?_⟩
    have : (if on = true then rtrimmed bs else bs) = bs := by
      rcases hz with hz | hz
      · have : bs = [] := List.length_eq_zero_iff.mp (by omega)
        subst this; cases on <;> rfl
      · subst hz; rfl
    rw [this]
    exact ⟨post, h1, h2, h3, h4, h5, h6⟩
  · rw [if_neg hz]
    have hon : on = true := by cases on <;> simp_all
    subst hon
    simp only [if_true]
    have e1 : s.1.data = (pre ++ v) ++ (bs ++ 0 :: post) := by rw [h1]; simp only [List.append_assoc]
    obtain ⟨hr, tl, htl⟩ := rtrimAt_spec (pre ++ v) (0 :: post) off (by rw [List.length_append]; exact hoff) s.2 bs h4
    rw [e1, hr, Option.map_some, Option.bind_some]
    have hlen : bs.length = (rtrimmed bs).length + tl.length := by
      have := congrArg List.length htl
      rw [List.length_append] at this; exact this
    by_cases hk : (rtrimmed bs).length = s.2
    · rw [if_pos hk]
      have : tl = [] := List.length_eq_zero_iff.mp (by omega)
      subst this
      rw [List.append_nil] at htl
      rw [← htl]
      exact ⟨_, rfl, post, by rw [List.append_assoc], h2, h3, h4, h5, h6⟩
    · rw [if_neg hk]
      cases tl with
      | nil => simp only [List.length_nil] at hlen; omega
      | cons y0 y =>
        generalize rtrimmed bs = rt at *
        subst htl
        have e3 : (pre ++ v) ++ ((rt ++ y0 :: y) ++ 0 :: post) = (pre ++ v ++ rt) ++ ([y0] ++ (y ++ 0 :: post)) := by
          simp only [List.append_assoc, List.cons_append, List.nil_append]
        show ∃ s', Option.map _ (wr ((pre ++ v) ++ ((rt ++ y0 :: y) ++ 0 :: post)) _ _) = some s' ∧ _
        rw [e3, wr_mid (pre ++ v ++ rt) [y0] _ [0] _ (by simp only [List.length_append]; omega) rfl, Option.map_some]
        simp only [List.length_cons] at hlen
        refine ⟨_, rfl, y ++ 0 :: post, ?_, h2, ?_, rfl, h5, ?_⟩
        · simp only [List.append_assoc, List.cons_append, List.nil_append]
        · show (if rt.length > s.2 then _ else _) = _
          rw [if_neg (by omega)]
          omega
        · simp only [List.length_append, List.length_cons] at h6 ⊢
          omega

end Verif.Buf
