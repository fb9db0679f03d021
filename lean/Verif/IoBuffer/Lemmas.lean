import Verif.IoBuffer.Model
import Verif.Buf.Props
import Verif.Bithacks.Props
/-! What the functions of the buffer layer do to the bytes in its buffers. -/
namespace Verif.IoBuffer
open Verif.Buf (Buf W Rep Cap Holds)
open Verif.Bithacks (roundUp64)

theorem growLoop_exact {a : Nat} (ha : a ≤ 53) (curr : Nat) : ∀ f k, k ≤ a → a < f + k → curr ≤ 1024 * 2 ^ k →
    Buf.growLoop (1024 * 2 ^ a) curr f (1024 * 2 ^ k) = some (1024 * 2 ^ a) := by
  intro f
  induction f with
  | zero => intro k hk hf; omega
  | succ f ih =>
    intro k hk hf hc
    unfold Buf.growLoop
    by_cases h : k = a
    · subst h; rw [if_neg (by omega)]
    · have hlt : 2 ^ k < 2 ^ a := Nat.pow_lt_pow_right (by omega) (by omega)
      rw [if_pos (by omega)]
      have e2 : 1024 * 2 ^ k * 2 = 1024 * 2 ^ (k + 1) := by rw [Nat.pow_succ]; omega
      have hb : 2 ^ (k + 1) ≤ 2 ^ 53 := Nat.pow_le_pow_right (by omega) (by omega)
      have hmod : 1024 * 2 ^ k * 2 % W = 1024 * 2 ^ (k + 1) := by
        rw [e2]; apply Nat.mod_eq_of_lt; unfold W; omega
      rw [hmod, if_neg (by omega)]
      exact ih (k + 1) (by omega) (by omega) (by omega)

theorem nextSize_exact {a curr : Nat} (ha : a ≤ 53) (hc : curr = 0 ∨ ∃ k, k ≤ a ∧ curr = 1024 * 2 ^ k) :
    Buf.nextSize 64 (1024 * 2 ^ a) curr = some (1024 * 2 ^ a) := by
  unfold Buf.nextSize
  rcases hc with h | ⟨k, hk, h⟩
  · subst h
    rw [if_pos rfl]
    exact growLoop_exact ha 0 64 0 (by omega) (by omega) (by omega)
  · have : 0 < 2 ^ k := Nat.two_pow_pos k
    rw [if_neg (by omega), h]
    exact growLoop_exact ha _ 64 k hk (by omega) (by omega)

/-- A buffer whose size is a power of two is asked for the room up to another. -/
theorem start_exact (g : Nat → UInt8) {b : Buf} {v : List UInt8} {a req : Nat} (h : Rep false b v) (ha : a ≤ 53)
    (hs : b.size = 0 ∨ ∃ k, k ≤ a ∧ b.size = 1024 * 2 ^ k) (hreq : v.length + req = 1024 * 2 ^ a) (h0 : 0 < req) :
    ∃ b', Buf.writeStart g b req = some (b', b'.cons + b'.len, req) ∧ Cap b'.size ∧ Holds false b' v req ∧ b'.size = 1024 * 2 ^ a := by
  have hpow : 2 ^ a ≤ 2 ^ 53 := Nat.pow_le_pow_right (by omega) ha
  have hle : b.size ≤ 1024 * 2 ^ a := by
    rcases hs with hs | ⟨k, hk, hs⟩
    · omega
    · have : 2 ^ k ≤ 2 ^ a := Nat.pow_le_pow_right (by omega) hk
      omega
  have key : ∃ b', Buf.ensureSpace g b req = some (b', true) ∧ Cap b'.size ∧ Holds false b' v req ∧ b'.size = 1024 * 2 ^ a ∧ b'.cons = 0 := by
    unfold Buf.ensureSpace
    have hl := h.len
    have hf := h.fit
    have e1 : (b.len + req) % W = v.length + req := by rw [hl]; apply Nat.mod_eq_of_lt; unfold W; omega
    have e2 : (b.size + W - b.cons) % W = b.size - b.cons := by
      have : b.size + W - b.cons = (b.size - b.cons) + W := by unfold W; omega
      rw [this, Nat.add_mod_right]; apply Nat.mod_eq_of_lt; unfold W; omega
    rw [e1, e2, if_neg (by omega)]
    obtain ⟨b1, e, hr, hc, hsz⟩ := Buf.consume_rep h
    rw [e, Option.bind_some]
    obtain ⟨b', e', hcap, hh, hz⟩ := Buf.enlarge_rep g (n := req) hr hc (by omega) h0
    refine ⟨b', e', hcap, hh, ?_, hz⟩
    unfold Buf.enlarge at e'
    split at e'
    · rw [hsz, hreq, nextSize_exact ha hs, Option.map_some, if_neg (by have := Nat.two_pow_pos a; omega)] at e'
      simp only [Option.some.injEq, Prod.mk.injEq] at e'
      rw [← e'.1]
    · simp only [Option.some.injEq, Prod.mk.injEq] at e'
      rw [← e'.1]; omega
  obtain ⟨b', e, hcap, hh, hsz, hcons⟩ := key
  refine ⟨b', ?_, hcap, hh, hsz⟩
  unfold Buf.writeStart
  rw [e, Option.map_some]
  have hl : b'.len = v.length := by obtain ⟨_, _, _, _, h3, _⟩ := hh; exact h3
  have : (b'.size + 2 * W - b'.cons - b'.len) % W = req := by
    rw [hcons, hl, hsz]
    have : 1024 * 2 ^ a + 2 * W - 0 - v.length = req + 2 * W := by omega
    rw [this, Nat.add_mul_mod_self_right]
    apply Nat.mod_eq_of_lt
    unfold W; omega
  rw [this]

theorem pow_le_imp {m n : Nat} (h : 2 ^ m ≤ 2 ^ n) : m ≤ n := (Nat.pow_le_pow_iff_right (by omega)).1 h
theorem pow_lt_imp {m n : Nat} (h : 2 ^ m < 2 ^ n) : m < n := (Nat.pow_lt_pow_iff_right (by omega)).1 h

theorem roundUp_next {k : Nat} (hk : k ≤ 51) : roundUp64 (1024 * 2 ^ k + 1) = 1024 * 2 ^ (k + 1) := by
  have hb : 2 ^ k ≤ 2 ^ 51 := Nat.pow_le_pow_right (by omega) hk
  have hp := Nat.two_pow_pos k
  obtain ⟨q, e, h1, h2⟩ := Verif.Bithacks.roundUp64_correct (1024 * 2 ^ k + 1) (by omega) (by omega)
  have e0 : 2 ^ (k + 10) = 1024 * 2 ^ k := by rw [Nat.pow_add]; omega
  have e1 : 2 ^ (k + 12) = 1024 * 2 ^ k * 4 := by rw [Nat.pow_add]; omega
  have a1 : k + 10 < q := pow_lt_imp (by omega)
  have a2 : q < k + 12 := pow_lt_imp (by omega)
  have : q = k + 11 := by omega
  rw [e, this, Nat.pow_add, Nat.pow_add]; omega

/-- The largest size of the read buffer. -/
def lim (m : Nat) : Nat := if m < 16384 then 16384 else m

/-- The sizes of the read buffer. -/
structure Sizes (h : Layer) : Prop where
  pow : ∃ j, h.maxR = 2 ^ j ∧ j ≤ 62
  size : h.r.size = 0 ∨ ∃ k, 4 ≤ k ∧ h.r.size = 1024 * 2 ^ k ∧ h.r.size ≤ lim h.maxR
  hit : h.hitR = true → h.r.size ≠ 0

theorem lim_pow {m j : Nat} (h : m = 2 ^ j) (hj : j ≤ 62) : ∃ a, 4 ≤ a ∧ a ≤ 52 ∧ lim m = 1024 * 2 ^ a := by
  unfold lim
  split
  · exact ⟨4, by omega, by omega, by decide⟩
  · rename_i hm
    have : 14 ≤ j := pow_le_imp (by rw [← h]; omega)
    refine ⟨j - 10, by omega, by omega, ?_⟩
    rw [h]
    have : j = (j - 10) + 10 := by omega
    conv => lhs; rw [this, Nat.pow_add]
    omega

theorem target_exact {h : Layer} (s : Sizes h) : ∃ a, 4 ≤ a ∧ a ≤ 52 ∧ target h = 1024 * 2 ^ a ∧ target h ≤ lim h.maxR ∧
    (h.r.size = 0 ∨ ∃ k, k ≤ a ∧ h.r.size = 1024 * 2 ^ k) ∧ (h.hitR = true → target h = h.r.size → h.r.size = lim h.maxR) := by
  obtain ⟨j, hj, hj2⟩ := s.pow
  obtain ⟨l, hl4, hl5, hl⟩ := lim_pow hj hj2
  have hp4 : 2 ^ 4 ≤ 2 ^ l := Nat.pow_le_pow_right (by omega) hl4
  rcases s.size with hs | ⟨k, hk, hs, hle⟩
  · have hh : h.hitR = false := by
      cases hh : h.hitR
      · rfl
      · exact absurd hs (s.hit hh)
    have : target h = 1024 * 2 ^ 4 := by simp [target, hh, allocSize, hs]
    exact ⟨4, by omega, by omega, this, by rw [this, hl]; omega, .inl hs, fun h' => by simp [hh] at h'⟩
  · have hkl : k ≤ l := pow_le_imp (by omega)
    have hp : 2 ^ 4 ≤ 2 ^ k := Nat.pow_le_pow_right (by omega) hk
    have hne : h.r.size ≠ 0 := by omega
    cases hh : h.hitR
    · have : target h = 1024 * 2 ^ k := by
        simp only [target, hh, allocSize, if_neg hne, Bool.false_eq_true, if_false]
        rw [if_neg (by omega), hs]
      exact ⟨k, hk, by omega, this, by omega, .inr ⟨k, by omega, hs⟩, fun h' => by simp at h'⟩
    · by_cases hkk : k = l
      · have : target h = 1024 * 2 ^ k := by
          simp only [target, hh, allocSize, if_neg hne, if_true]
          have hm : h.maxR ≤ 1024 * 2 ^ k := by
            rw [hkk, ← hl]; unfold lim; split <;> omega
          have hr : roundUp64 (h.r.size + 1) > h.maxR := by
            by_cases h51 : k ≤ 51
            · rw [hs, roundUp_next h51, Nat.pow_succ]; omega
            · have : k = 52 := by omega
              subst this
              obtain ⟨q, e, h1, h2⟩ := Verif.Bithacks.roundUp64_correct (h.r.size + 1) (by omega) (by omega)
              rw [e]; omega
          rw [if_pos hr]
          have := hl
          rw [← hkk] at this
          unfold lim at this
          split at this
          · rw [if_pos (by omega)]; exact this
          · rw [if_neg (by omega)]; exact this
        exact ⟨k, hk, by omega, this, by omega, .inr ⟨k, by omega, hs⟩, fun _ _ => by rw [hs, hl, hkk]⟩
      · have hlt : k + 1 ≤ l := by omega
        have hp2 : 2 ^ (k + 1) ≤ 2 ^ l := Nat.pow_le_pow_right (by omega) hlt
        have e2 : 2 ^ (k + 1) = 2 ^ k * 2 := Nat.pow_succ ..
        have : target h = 1024 * 2 ^ (k + 1) := by
          simp only [target, hh, allocSize, if_neg hne, if_true]
          have hm : 1024 * 2 ^ (k + 1) ≤ h.maxR := by
            have := hl
            unfold lim at this
            split at this <;> omega
          rw [hs, roundUp_next (by omega), if_neg (show ¬ 1024 * 2 ^ (k + 1) > h.maxR by omega), if_neg (by omega)]
        exact ⟨k + 1, by omega, by omega, this, by omega, .inr ⟨k, by omega, hs⟩, fun _ he => by omega⟩

/-- What a read event does. -/
theorem processRead_spec (g : Nat → UInt8) {h : Layer} {v : List UInt8} (s : Sizes h) (hr : Rep false h.r v) (hv : v.length ≤ lim h.maxR)
    (kern : List UInt8) :
    ∃ h' c bs, processRead g h (lowRead kern) = some (h', c, bs) ∧ Sizes h' ∧ Rep false h'.r (v ++ bs) ∧ (v ++ bs).length ≤ lim h.maxR ∧
      h'.maxR = h.maxR ∧ h'.maxW = h.maxW ∧ h'.w = h.w ∧ h'.hitW = h.hitW ∧ bs <+: kern ∧ (bs ≠ [] → v = [] → c = false) ∧
      (v.length < target h → h'.hitR = false → bs = kern) ∧ (v.length < target h → h'.hitR = true → bs ≠ []) ∧
      (target h ≤ v.length → h' = { h with hitR := false }) ∧ (v.length < target h → bs = kern.take (target h - v.length)) ∧
      (v.length < target h → (h'.hitR = true ↔ bs.length = target h - v.length)) ∧ (v.length < target h → h'.r.size = target h) := by
  obtain ⟨a, ha4, ha, ht, htl, hsz, _⟩ := target_exact s
  have hpow : 2 ^ a ≤ 2 ^ 53 := Nat.pow_le_pow_right (by omega) (by omega)
  have hlen := hr.len
  have hcap := hr.fit
  have hvt : v.length ≤ target h := by
    rcases hsz with hz | ⟨k, hk, hz⟩
    · omega
    · have : 2 ^ k ≤ 2 ^ a := Nat.pow_le_pow_right (by omega) hk
      omega
  have ereq : (target h + W - h.r.len) % W = target h - v.length := by
    have : target h + W - h.r.len = (target h - v.length) + W := by omega
    rw [this, Nat.add_mod_right]
    apply Nat.mod_eq_of_lt
    unfold W; omega
  unfold processRead
  dsimp only
  rw [ereq]
  have sz' : ∀ (b : Buf) (q : Bool), b.size = 1024 * 2 ^ a → Sizes { h with r := b, hitR := q } := by
    intro b q hb
    exact ⟨s.pow, .inr ⟨a, ha4, hb, by show b.size ≤ lim h.maxR; omega⟩, fun _ => by show b.size ≠ 0; have := Nat.two_pow_pos a; omega⟩
  by_cases h0 : target h - v.length = 0
  · rw [if_pos h0]
    refine ⟨_, _, _, rfl, ⟨s.pow, s.size, fun h => by simp at h⟩, by simpa using hr, by simpa using hv, rfl, rfl, rfl, rfl, List.nil_prefix, fun h => absurd rfl h,
      fun _ => by omega, fun _ => by omega, fun _ => rfl, fun _ => by omega, fun _ => by omega, fun _ => by omega⟩
  · rw [if_neg h0]
    obtain ⟨b', e, hc, hh, hb⟩ := start_exact g hr (by omega) hsz (req := target h - v.length) (by omega) (by omega)
    rw [e, Option.bind_some]
    dsimp only
    unfold lowRead
    by_cases hk : kern = []
    · rw [if_pos hk]
      refine ⟨_, _, _, rfl, sz' b' false hb, ?_, by simpa using hv, rfl, rfl, rfl, rfl, List.nil_prefix, fun h => absurd rfl h,
        fun _ _ => hk.symm, fun _ h => by simp at h, fun h => by omega, fun _ => by simp [hk], fun _ => ?_, fun _ => by show b'.size = _; omega⟩
      · simpa using Buf.Holds.rep hc hh
      · simp only [Bool.false_eq_true, List.length_nil, false_iff]; omega
    · rw [if_neg hk]
      dsimp only
      have hbs : (kern.take (target h - v.length)).length ≤ target h - v.length := by rw [List.length_take]; omega
      have hpos : 0 < (kern.take (target h - v.length)).length := by
        rw [List.length_take]
        have : 0 < kern.length := List.length_pos_iff.2 hk
        omega
      have hpre : kern.take (target h - v.length) <+: kern := List.take_prefix ..
      have hsat : (kern.take (target h - v.length)).length < target h - v.length → kern.take (target h - v.length) = kern := by
        intro hlt
        rw [List.length_take] at hlt
        exact List.take_of_length_le (by omega)
      generalize ekt : kern.take (target h - v.length) = bs at hbs hpos hpre hsat ⊢
      obtain ⟨b2, e2, hr2, hc2⟩ := Buf.append_rep (bs := bs) hc (hh.weaken hbs)
      have eapp : ((Buf.wr b'.data (b'.cons + b'.len) bs).bind fun d => Buf.writeEnd { b' with data := d } bs.length) = some b2 := by
        rw [← e2]
        unfold Buf.append
        cases Buf.wr b'.data (b'.cons + b'.len) bs with
        | none => rfl
        | some d =>
          simp only [Option.bind_some, Buf.writeEnd]
          rw [if_neg (by omega), Nat.add_assoc]
      have hb2 : b2.size = b'.size := by
        unfold Buf.append at e2
        simp only [Option.bind_eq_some_iff, Option.map_eq_some_iff] at e2
        obtain ⟨d, _, d2, _, rfl⟩ := e2
        rfl
      cases hw : Buf.wr b'.data (b'.cons + b'.len) bs with
      | none => rw [hw] at eapp; simp at eapp
      | some d =>
        rw [hw] at eapp
        simp only [Option.bind_some] at eapp ⊢
        rw [eapp, Option.map_some]
        have hl2 := hr2.len
        refine ⟨_, _, _, rfl, sz' b2 _ (by omega), hr2.forget, ?_, rfl, rfl, rfl, rfl, hpre, ?_, ?_, ?_, fun h => by omega, fun _ => rfl, ?_, fun _ => by show b2.size = _; omega⟩
        · rw [List.length_append]; omega
        · intro _ hv0
          simp only [decide_eq_false_iff_not, ne_eq, Decidable.not_not]
          rw [hl2, hv0]; simp
        · intro _ hf
          simp only [decide_eq_false_iff_not] at hf
          exact hsat (by omega)
        · intro _ _ hn
          simp [hn] at hpos
        · intro _
          simp only [decide_eq_true_eq]
          omega

theorem rd_rep {b : Buf} {v : List UInt8} (hr : Rep false b v) {n : Nat} (hn : n ≤ v.length) (h0 : 0 < n) : Buf.rd b.data b.cons n = some (v.take n) := by
  obtain ⟨hc, ⟨h, h2⟩ | ⟨pre, post, h1, h2, h3, h4, h5, h6⟩⟩ := hr
  · subst h2; simp at hn; omega
  · have e : b.data = pre ++ (v.take n ++ (v.drop n ++ post)) := by rw [h1, ← List.append_assoc (v.take n), List.take_append_drop]
    rw [e]
    exact Buf.rd_mid _ _ _ _ _ h2 (by rw [List.length_take]; omega)

theorem drop_size {b b' : Buf} {n : Nat} (h : Buf.drop b n = some b') : b'.size = b.size := by
  unfold Buf.drop at h
  split at h
  · simp only [Option.some.injEq] at h; rw [← h]
  · simp only [Option.map_eq_some_iff] at h
    obtain ⟨d, _, rfl⟩ := h
    rfl

theorem readCb_spec {h : Layer} {v : List UInt8} (s : Sizes h) (hr : Rep false h.r v) (n : Nat) :
    ∃ h', readCb h n = some (h', v.take n, h.hitR && decide (v.take n ≠ [])) ∧ Sizes h' ∧ Rep false h'.r (v.drop n) ∧ h'.maxR = h.maxR ∧ h'.maxW = h.maxW ∧
      h'.w = h.w ∧ h'.hitW = h.hitW ∧ h'.hitR = h.hitR ∧ h'.r.size = h.r.size := by
  have hl := hr.len
  unfold readCb
  dsimp only
  have elen : (if h.r.len < n then h.r.len else n) = min v.length n := by rw [hl]; split <;> omega
  rw [elen]
  by_cases h0 : min v.length n = 0
  · rw [if_pos h0]
    have et : v.take n = [] := by
      apply List.eq_nil_of_length_eq_zero
      rw [List.length_take]; omega
    have ed : v.drop n = v := by
      have := List.take_append_drop n v
      rwa [et, List.nil_append] at this
    rw [et]
    exact ⟨h, by simp, s, by rw [ed]; exact hr, rfl, rfl, rfl, rfl, rfl, rfl⟩
  · rw [if_neg h0, rd_rep hr (by omega) (by omega), Option.bind_some]
    obtain ⟨b', e, hr'⟩ := Buf.drop_rep hr (min v.length n)
    rw [e, Option.map_some]
    have hs := drop_size e
    have et : v.take (min v.length n) = v.take n := by
      by_cases hn : n ≤ v.length
      · rw [Nat.min_eq_right hn]
      · rw [List.take_of_length_le (by omega : v.length ≤ min v.length n), List.take_of_length_le (by omega)]
    have ed : v.drop (min v.length n) = v.drop n := by
      by_cases hn : n ≤ v.length
      · rw [Nat.min_eq_right hn]
      · rw [List.drop_of_length_le (by omega : v.length ≤ min v.length n), List.drop_of_length_le (by omega)]
    have hne : v.take n ≠ [] := by
      intro hn
      have := congrArg List.length hn
      rw [List.length_take] at this
      simp only [List.length_nil] at this
      omega
    refine ⟨{ h with r := b' }, by simp [et, hne], ⟨s.pow, ?_, ?_⟩, by rw [← ed]; exact hr', rfl, rfl, rfl, rfl, rfl, hs⟩
    · show b'.size = 0 ∨ _
      rw [hs]; exact s.size
    · show _ → b'.size ≠ 0
      rw [hs]; exact s.hit

theorem writeCb_spec (g : Nat → UInt8) {h : Layer} {v : List UInt8} (hr : Rep false h.w v) (hv : v.length ≤ h.maxW) (hm : h.maxW ≤ 2 ^ 62) (bs : List UInt8)
    (hw : h.maxW + bs.length < W) :
    ∃ h', writeCb g h bs = some (h', min bs.length (h.maxW - v.length)) ∧ Rep false h'.w (v ++ bs.take (h.maxW - v.length)) ∧ h'.maxR = h.maxR ∧
      h'.maxW = h.maxW ∧ h'.r = h.r ∧ h'.hitR = h.hitR ∧ (h.maxW - v.length ≤ bs.length → h'.hitW = true) ∧ (h.hitW = true → h'.hitW = true) := by
  have hl := hr.len
  unfold writeCb
  dsimp only
  have e1 : (h.w.len + bs.length) % W = v.length + bs.length := by rw [hl]; apply Nat.mod_eq_of_lt; omega
  have e2 : (h.maxW + W - h.w.len) % W = h.maxW - v.length := by
    have : h.maxW + W - h.w.len = (h.maxW - v.length) + W := by omega
    rw [this, Nat.add_mod_right]; apply Nat.mod_eq_of_lt; unfold W; omega
  rw [e1, e2]
  by_cases hf : v.length + bs.length ≥ h.maxW
  · simp only [hf, decide_true, if_true]
    have em : min bs.length (h.maxW - v.length) = h.maxW - v.length := by omega
    rw [em]
    by_cases h0 : h.maxW - v.length = 0
    · rw [if_pos h0]
      exact ⟨{ h with hitW := true }, by rw [h0], by rw [h0]; simpa using hr, rfl, rfl, rfl, rfl, fun _ => rfl, fun _ => rfl⟩
    · rw [if_neg h0]
      obtain ⟨b', e, hr', _⟩ := Buf.addTransform_rep g hr {} (bs.take (h.maxW - v.length)) (by rw [List.length_take]; omega)
      have e3 : Buf.addBytes g h.w (bs.take (h.maxW - v.length)) = some b' := by unfold Buf.addBytes; rw [e]; rfl
      rw [e3, Option.map_some]
      exact ⟨{ h with w := b', hitW := true }, rfl, by simpa [Buf.trSpec] using hr'.forget, rfl, rfl, rfl, rfl, fun _ => rfl, fun _ => rfl⟩
  · simp only [hf, decide_false, Bool.false_eq_true, if_false]
    have em : min bs.length (h.maxW - v.length) = bs.length := by omega
    rw [em]
    have et : bs.take (h.maxW - v.length) = bs := List.take_of_length_le (by omega)
    rw [et]
    by_cases h0 : bs.length = 0
    · rw [if_pos h0]
      have : bs = [] := List.eq_nil_of_length_eq_zero h0
      exact ⟨h, by rw [h0], by rw [this]; simpa using hr, rfl, rfl, rfl, rfl, fun h => by omega, id⟩
    · rw [if_neg h0, List.take_of_length_le (Nat.le_refl _)]
      obtain ⟨b', e, hr', _⟩ := Buf.addTransform_rep g hr {} bs (by omega)
      have e3 : Buf.addBytes g h.w bs = some b' := by unfold Buf.addBytes; rw [e]; rfl
      rw [e3, Option.map_some]
      exact ⟨{ h with w := b' }, rfl, by simpa [Buf.trSpec] using hr'.forget, rfl, rfl, rfl, rfl, fun h => by omega, id⟩

theorem processWrite_spec {h : Layer} {v : List UInt8} (hr : Rep false h.w v) (k : Nat) :
    ∃ h' c, processWrite h (fun l => some (min k l.length)) = some (h', c, v.take k) ∧ Rep false h'.w (v.drop k) ∧ h'.maxR = h.maxR ∧
      h'.maxW = h.maxW ∧ h'.r = h.r ∧ h'.hitR = h.hitR ∧ (v = [] → c = false) ∧ (h.hitW = true → c = false ∨ (v.take k = [] ∧ h'.hitW = true)) ∧
      (c = true → h'.hitW = h.hitW) := by
  have hl := hr.len
  unfold processWrite
  by_cases h0 : h.w.len = 0
  · rw [if_pos h0]
    have : v = [] := List.eq_nil_of_length_eq_zero (by omega)
    subst this
    exact ⟨h, false, by simp, by simpa using hr, rfl, rfl, rfl, rfl, fun _ => rfl, fun _ => .inl rfl, fun h => by simp at h⟩
  · rw [if_neg h0, hl, rd_rep hr (Nat.le_refl _) (by omega), Option.bind_some, List.take_of_length_le (Nat.le_refl _)]
    dsimp only
    have hne : v ≠ [] := by intro hv; subst hv; simp at hl; omega
    cases hm : min k v.length with
    | zero =>
      have : v.take k = [] := by
        apply List.eq_nil_of_length_eq_zero
        rw [List.length_take]; omega
      have ed : v.drop k = v := by
        have h2 := List.take_append_drop k v
        rwa [this, List.nil_append] at h2
      exact ⟨h, true, by rw [this]; rfl, by rw [ed]; exact hr, rfl, rfl, rfl, rfl, fun h => absurd h hne, fun hh => .inr ⟨this, hh⟩, fun _ => rfl⟩
    | succ m =>
      obtain ⟨b', e, hr'⟩ := Buf.drop_rep hr (m + 1)
      change ∃ h' c, Option.map _ (Buf.drop h.w (m + 1)) = some (h', c, v.take k) ∧ _
      rw [e, Option.map_some]
      have et : v.take (m + 1) = v.take k := by
        rw [← hm]
        by_cases hn : k ≤ v.length
        · rw [Nat.min_eq_left hn]
        · rw [List.take_of_length_le (by omega : v.length ≤ min k v.length), List.take_of_length_le (by omega)]
      have ed : v.drop (m + 1) = v.drop k := by
        rw [← hm]
        by_cases hn : k ≤ v.length
        · rw [Nat.min_eq_left hn]
        · rw [List.drop_of_length_le (by omega : v.length ≤ min k v.length), List.drop_of_length_le (by omega)]
      rw [et]
      rw [ed] at hr'
      cases hh : h.hitW
      · simp only [if_true]
        exact ⟨_, _, rfl, hr', rfl, rfl, rfl, rfl, fun h => absurd h hne, fun h => by simp at h, fun _ => rfl⟩
      · simp only [Bool.true_eq_false, if_false]
        exact ⟨_, _, rfl, hr', rfl, rfl, rfl, rfl, fun _ => rfl, fun _ => .inl rfl, fun h => by simp at h⟩

end Verif.IoBuffer
