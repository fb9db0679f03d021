import Verif.IniMerge.Model
/- What a three way merge is to do with a key, said of its values alone. -/
namespace Verif.IniMerge
open Verif.Ini

/-- The text of a value: nothing for a key without one. -/
def text : Val → List UInt8
  | none => []
  | some t => t

/-- Who decides a conflict: the callback when there are no flags, the flag otherwise; the new side if there is neither. -/
def Asked (r : Rules) (flag : UInt32) (key : Option (List UInt8)) (cur new : Val) : Prop :=
  (r.flags = 0 ∧ ∃ f, r.resolver = some f ∧ f key cur new = true) ∨ r.flags &&& flag ≠ 0

/-- The flags of `M_ini_merge_conflict_t`, `include/mstdlib/formats/m_ini.h:157-169`. -/
def REMOVED_KEEP : UInt32 := 1
def CHANGED_USE_CUR : UInt32 := 2
def MULTI_REMOVED_KEEP : UInt32 := 8

/-- The value is among these. -/
def Among (v : Val) (l : List Val) : Prop := ∃ w ∈ l, text w = text v

/-- What a key that the current object has is to have in the merged one, by its values in the three. -/
inductive Kept (r : Rules) (key : List UInt8) (C N O : List Val) : List Val → Prop
  /-- The user brought it in. -/
  | own : O = [] → Kept r key C N O C
  /-- The new one does not have it any more, and nobody holds it. -/
  | gone : O ≠ [] → N = [] → ¬ Asked r REMOVED_KEEP none (some key) none → Kept r key C N O []
  /-- The new one does not have it any more, but it is to be kept. -/
  | held : O ≠ [] → N = [] → Asked r REMOVED_KEEP none (some key) none → Kept r key C N O C
  /-- One value, which the user changed, or which is the same in the new one. -/
  | mine (c n o : Val) (os : List Val) : C = [c] → N = [n] → O = o :: os → text c ≠ text o ∨ text c = text n → Kept r key C N O [c]
  /-- One value, which the user did not change but the new one did. -/
  | theirs (c n o : Val) (os : List Val) : C = [c] → N = [n] → O = o :: os → text c = text o → text c ≠ text n → ¬ Asked r CHANGED_USE_CUR (some key) c n →
      Kept r key C N O [n]
  /-- As before, but the value is to stay. -/
  | stays (c n o : Val) (os : List Val) : C = [c] → N = [n] → O = o :: os → text c = text o → text c ≠ text n → Asked r CHANGED_USE_CUR (some key) c n →
      Kept r key C N O [c]
  /-- Several values: those of the user without the ones that the new one does not have any more, and behind them the ones that
  only the new one has. -/
  | several (K A : List Val) : O ≠ [] → N ≠ [] → (1 < C.length ∨ 1 < N.length) →
      K.Sublist C → (∀ v ∈ C, (v ∈ K ↔ (Among v N ∨ ¬ Among v O ∨ Asked r MULTI_REMOVED_KEEP (some key) v none))) → (∀ v ∈ K, K.count v = C.count v) →
      A.Sublist N → (∀ v ∈ N, (v ∈ A ↔ (¬ Among v C ∧ ¬ Among v O))) → (∀ v ∈ A, A.count v = N.count v) → Kept r key C N O (K ++ A)

end Verif.IniMerge
