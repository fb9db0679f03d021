import Verif.ProxyProto.Feed
import Verif.Num.Props
import Verif.Decimal.TextProps
/-! The fields of the text form and of the binary form. -/
namespace Verif.ProxyProto
open Verif.Chr Verif.Num

theorem find_first {c : UInt8} {ds : List UInt8} (q : List UInt8) : ∀ {t : List UInt8}, c ∉ t →
    find (c :: ds) (t ++ (c :: ds) ++ q) = some t.length
  | [], _ => by
    rw [List.nil_append, List.cons_append, find, if_pos]
    · rfl
    · rw [← List.cons_append]; exact prefix_append (List.isPrefixOf_iff_prefix.2 (List.prefix_refl _))
  | a :: t, h => by
    rw [List.cons_append, List.cons_append, find, if_neg, find_first q (fun hm => h (List.mem_cons_of_mem _ hm))]
    · rfl
    · intro hp
      have := List.isPrefixOf_iff_prefix.1 hp
      rw [List.cons_prefix_cons] at this
      exact h (by rw [this.1]; exact List.mem_cons_self)

theorem find_none {c : UInt8} {ds : List UInt8} : ∀ {p t : List UInt8}, c ∉ t → c ∉ ds → p <+: t ++ (c :: ds) →
    p.length < (t ++ (c :: ds)).length → find (c :: ds) p = none
  | [], _, _, _, _, _ => rfl
  | a :: p, [], ht, hd, hp, hl => by
    rw [List.nil_append, List.cons_prefix_cons] at hp
    obtain ⟨rfl, hp⟩ := hp
    have hno : ∀ l : List UInt8, a ∉ l → find (a :: ds) l = none := by
      intro l
      induction l with
      | nil => intro; rfl
      | cons b l ih =>
        intro hm
        rw [find, if_neg, ih (fun h => hm (List.mem_cons_of_mem _ h))]
        · rfl
        · intro hq
          have := List.isPrefixOf_iff_prefix.1 hq
          rw [List.cons_prefix_cons] at this
          exact hm (by rw [this.1]; exact List.mem_cons_self)
    rw [find, if_neg, hno p (fun h => hd (hp.subset h))]
    · rfl
    · intro hq
      have := (List.isPrefixOf_iff_prefix.1 hq).length_le
      simp at this hl
      omega
  | a :: p, b :: t, ht, hd, hp, hl => by
    rw [List.cons_append, List.cons_prefix_cons] at hp
    obtain ⟨rfl, hp⟩ := hp
    rw [find, if_neg, find_none (fun hm => ht (List.mem_cons_of_mem _ hm)) hd hp (by simp at hl ⊢; omega)]
    · rfl
    · intro hq
      have := List.isPrefixOf_iff_prefix.1 hq
      rw [List.cons_prefix_cons] at this
      exact ht (by rw [this.1]; exact List.mem_cons_self)

theorem field_whole {c : UInt8} {ds t q : List UInt8} {cap limit : Nat} (h0 : t ≠ []) (hc : c ∉ t) (hl : t.length ≤ cap) :
    field (t ++ (c :: ds) ++ q) (c :: ds) cap limit = (some (t, (c :: ds) ++ q), false) := by
  have e : readUntil (t ++ (c :: ds) ++ q) (c :: ds) cap = (t, (c :: ds) ++ q) := by
    unfold readUntil
    rw [find_first q hc]
    dsimp only
    rw [if_neg (by omega), List.append_assoc, List.take_left, List.drop_left]
  unfold field
  rw [e, if_neg h0]

theorem field_part {c : UInt8} {ds t p : List UInt8} {cap limit : Nat} (hc : c ∉ t) (hd : c ∉ ds) (hp : p <+: t ++ (c :: ds))
    (hl : p.length < (t ++ (c :: ds)).length) : field p (c :: ds) cap limit = (none, decide (p.length < limit)) := by
  have e : readUntil p (c :: ds) cap = ([], p) := by
    unfold readUntil
    rw [find_none hc hd hp hl]
  unfold field
  rw [e]
  simp

theorem cstr_eq {t : List UInt8} (h : (0 : UInt8) ∉ t) : cstr t = t := by
  unfold cstr
  induction t with
  | nil => rfl
  | cons c t ih =>
    have hc : c ≠ 0 := fun e => h (by rw [e]; exact List.mem_cons_self)
    rw [List.takeWhile_cons_of_pos (by simpa using hc), ih (fun hm => h (List.mem_cons_of_mem _ hm))]

/-- A port in decimal: one to five digits, between 1 and 65535. -/
structure PortText (t : List UInt8) (n : Nat) : Prop where
  digits : ∀ c ∈ t, 48 ≤ c.toNat ∧ c.toNat ≤ 57
  size : 1 ≤ t.length ∧ t.length ≤ 5
  number : value 10 t = n
  range : 1 ≤ n ∧ n ≤ 65535

theorem dig_lt {c : UInt8} (h : 48 ≤ c.toNat ∧ c.toNat ≤ 57) :
    digitVal c < 10 ∧ isSpace c = false ∧ c ≠ 45 ∧ c ≠ 43 ∧ c ≠ 0 ∧ c ≠ 32 ∧ c ≠ 13 := by
  have : c = 48 ∨ c = 49 ∨ c = 50 ∨ c = 51 ∨ c = 52 ∨ c = 53 ∨ c = 54 ∨ c = 55 ∨ c = 56 ∨ c = 57 := by
    simp only [← UInt8.toNat_inj]
    simp
    omega
  rcases this with rfl | rfl | rfl | rfl | rfl | rfl | rfl | rfl | rfl | rfl <;> decide

theorem PortText.no {t : List UInt8} {n : Nat} (h : PortText t n) : (0 : UInt8) ∉ t ∧ (32 : UInt8) ∉ t ∧ (13 : UInt8) ∉ t :=
  ⟨fun hm => (dig_lt (h.digits _ hm)).2.2.2.2.1 rfl, fun hm => (dig_lt (h.digits _ hm)).2.2.2.2.2.1 rfl,
    fun hm => (dig_lt (h.digits _ hm)).2.2.2.2.2.2 rfl⟩

theorem PortText.ne {t : List UInt8} {n : Nat} (h : PortText t n) : t ≠ [] := by
  intro e
  have := h.size
  simp [e] at this

theorem toU32_port {t : List UInt8} {n : Nat} (h : PortText t n) : toU32 t = n := by
  have hn := h.no.1
  have hc : Call (t ++ [0]) t.length t [0] := by
    refine ⟨rfl, hn, ⟨t, [], rfl, hn, by rw [List.take_length]⟩, ?_⟩
    have := h.size; omega
  have hp : Parsed 10 t false t [] := by
    refine ⟨⟨[], [], by simp, by simp, .inr (.inr ⟨rfl, rfl, ?_⟩)⟩, fun c hm => (dig_lt (h.digits c hm)).1, by simp⟩
    intro c hcc
    rw [List.append_nil] at hcc
    have hm := List.mem_of_head? hcc
    exact ⟨(dig_lt (h.digits c hm)).2.1, (dig_lt (h.digits c hm)).2.2.1, (dig_lt (h.digits c hm)).2.2.2.1⟩
  have hx : (t ++ []).map toLower ≠ [48, 120] := by
    rw [List.append_nil]
    intro e
    have hm : (120 : UInt8) ∈ t.map toLower := by rw [e]; decide
    obtain ⟨c, h1, h2⟩ := List.mem_map.1 hm
    have := h.digits c h1
    have : c = 48 ∨ c = 49 ∨ c = 50 ∨ c = 51 ∨ c = 52 ∨ c = 53 ∨ c = 54 ∨ c = 55 ∨ c = 56 ∨ c = 57 := by
      simp only [← UInt8.toNat_inj]
      simp
      omega
    revert h2
    rcases this with rfl | rfl | rfl | rfl | rfl | rfl | rfl | rfl | rfl | rfl <;> decide
  have hr := h.range
  have hv : value 10 t < 2 ^ 64 := by rw [h.number]; omega
  have hk := uint32_exact_partial hc (by omega) hp hx hv
  rw [h.number, if_pos (by omega), if_neg h.ne] at hk
  unfold toU32
  rw [cstr_eq hn, hk]

/-- The decimal digits the writer prints for a port. -/
theorem portText_dec {n : Nat} (h : 1 ≤ n ∧ n ≤ 65535) : PortText (Decimal.decStr n) n := by
  obtain ⟨h1, h2, h3, h4, _⟩ := Decimal.decStr_spec n
  refine ⟨fun c hm => ?_, ?_, h2, h⟩
  · have := h1 c hm
    simpa [Decimal.Dig, UInt8.le_iff_toNat_le] using this
  · have h5 : (Decimal.decStr n).length ≠ 0 := fun e => h4 (List.length_eq_zero_iff.1 e)
    rw [h3] at *
    exact ⟨by omega, (Decimal.countDigits_le n 5).2 ⟨by omega, by omega⟩⟩

theorem byteAt_left {a b : List UInt8} {i : Nat} (h : i < a.length) : byteAt (a ++ b) i = byteAt a i := byteAt_append h

theorem byteAt_right {a b : List UInt8} {i : Nat} : byteAt (a ++ b) (a.length + i) = byteAt b i := by
  unfold byteAt
  rw [List.getD_eq_getElem?_getD, List.getD_eq_getElem?_getD, List.getElem?_append_right (by omega)]
  congr 3; omega

end Verif.ProxyProto
