/-
Comparators.  A C comparator returns an `int` whose sign is meaningful
(`include/mstdlib/base/m_sort.h:48-70`, `M_sort_compar_t`).  We model it as a function into `Int`.
-/
namespace Verif

/-- What mstdlib (and C in general) demands of a comparator: it is a total preorder.
Specification only; nothing in the models uses it. -/
structure LawfulCmp {α : Type _} (cmp : α → α → Int) : Prop where
  swap : ∀ a b, cmp a b ≤ 0 ↔ 0 ≤ cmp b a
  trans : ∀ a b c, cmp a b ≤ 0 → cmp b c ≤ 0 → cmp a c ≤ 0

namespace LawfulCmp
variable {α : Type _} {cmp : α → α → Int} (h : LawfulCmp cmp)
include h

theorem refl (a : α) : cmp a a = 0 := by
  have := h.swap a a
  omega

theorem refl_le (a : α) : cmp a a ≤ 0 := by rw [h.refl]; omega

theorem lt_swap (a b : α) : cmp a b < 0 ↔ 0 < cmp b a := by
  have := h.swap b a
  omega

theorem eq_swap (a b : α) : cmp a b = 0 ↔ cmp b a = 0 := by
  have := h.swap a b
  have := h.swap b a
  omega

theorem ge_swap (a b : α) : 0 ≤ cmp a b ↔ cmp b a ≤ 0 := (h.swap b a).symm

theorem total (a b : α) : cmp a b ≤ 0 ∨ cmp b a ≤ 0 := by
  have := h.swap a b
  omega

theorem lt_of_lt_of_le {a b c : α} (h1 : cmp a b < 0) (h2 : cmp b c ≤ 0) : cmp a c < 0 := by
  have h3 := h.trans a b c (by omega) h2
  rcases Int.lt_or_eq_of_le h3 with h4 | h4
  · exact h4
  · have h5 := (h.eq_swap _ _).1 h4
    have := h.trans b c a h2 (by omega)
    have := (h.lt_swap a b).1 h1
    omega

theorem lt_of_le_of_lt {a b c : α} (h1 : cmp a b ≤ 0) (h2 : cmp b c < 0) : cmp a c < 0 := by
  have h3 := h.trans a b c h1 (by omega)
  rcases Int.lt_or_eq_of_le h3 with h4 | h4
  · exact h4
  · have h5 := (h.eq_swap _ _).1 h4
    have := h.trans c a b (by omega) h1
    have := (h.lt_swap b c).1 h2
    omega

theorem eq_trans {a b c : α} (h1 : cmp a b = 0) (h2 : cmp b c = 0) : cmp a c = 0 := by
  have h3 := h.trans a b c (by omega) (by omega)
  have h4 := h.trans c b a (by rw [(h.eq_swap _ _).1 h2]; omega) (by rw [(h.eq_swap _ _).1 h1]; omega)
  have := h.swap c a
  omega
end LawfulCmp

/-- The comparator used by the examples: numeric order on naturals. -/
def natCmp (a b : Nat) : Int := (a : Int) - b

theorem natCmp_lawful : LawfulCmp natCmp where
  swap a b := by unfold natCmp; omega
  trans a b c := by unfold natCmp; omega

/-- Example comparator with ties: compares only the first component. -/
def keyCmp (a b : Nat × Nat) : Int := (a.1 : Int) - b.1

theorem keyCmp_lawful : LawfulCmp keyCmp where
  swap a b := by unfold keyCmp; omega
  trans a b c := by unfold keyCmp; omega

end Verif
