import Verif.ConnPool.Model
import Batteries.Data.List.Perm
/-! The invariant of the connection pool. -/
namespace Verif.ConnPool
open Verif.Sql (CState)

/-- The id that is reserved for a connection a thread is making. -/
def pend : T → Option Nat
  | .connecting id => some id
  | .connected c => some c.id
  | .enter _ (some id) => some id
  | _ => none

def held : T → Option Conn
  | .has c => some c
  | _ => none

def made : T → Option Conn
  | .connected c => some c
  | _ => none

def asleep : T → Bool
  | .sleep => true
  | .woken => true
  | _ => false

/-- The thread is on its way to a connection, or has one. -/
def active : T → Bool
  | .woken => true
  | .enter w _ => w
  | .connecting _ => true
  | .connected _ => true
  | .has _ => true
  | _ => false

/-- The ids in use. -/
def ids (s : St) (l : List T) : List Nat := s.conns.map (·.id) ++ (s.used.map (·.id) ++ l.filterMap pend)

/-- The connections that exist. -/
def live (s : St) (l : List T) : List Nat := s.conns.map (·.uid) ++ (s.used.map (·.uid) ++ ((l.filterMap made).map (·.uid) ++ s.dead))

/-- The invariant, for the threads `l`. -/
structure Inv (s : St) (l : List T) : Prop where
  max : 0 < s.max
  nodup : (ids s l).Nodup
  up : ∀ i ∈ ids s l, s.info i = .up ∧ i < s.max
  all : s.started = true → ∀ i, s.info i = .up → i ∈ ids s l
  new : s.newConns = (l.filterMap pend).length
  bound : s.conns.length + (s.used.length + s.newConns) ≤ s.max
  held : s.used.Perm (l.filterMap held)
  wait : s.waiters = l.countP asleep
  uids : (live s l).Nodup
  fresh : ∀ u, u ∈ live s l ↔ u < s.fresh
  idle : ∀ c ∈ s.conns, s.state c.uid = .ok
  made : ∀ c ∈ l.filterMap made, s.state c.uid = .ok
  failed : ∀ id, T.enter false (some id) ∉ l
  busy : T.sleep ∈ l → ∃ x ∈ l, active x = true
  stopped : s.started = false → s.used = [] ∧ s.newConns = 0 ∧ s.waiters = 0 ∧ s.conns = []

theorem Inv.perm {s : St} {l l' : List T} (h : Inv s l) (p : l.Perm l') : Inv s l' where
  max := h.max
  nodup := (List.Perm.append_left _ (List.Perm.append_left _ (p.filterMap _))).nodup h.nodup
  up := fun i hi => h.up i ((List.Perm.append_left _ (List.Perm.append_left _ (p.filterMap _))).mem_iff.2 hi)
  all := fun h0 i hi => (List.Perm.append_left _ (List.Perm.append_left _ (p.filterMap _))).mem_iff.1 (h.all h0 i hi)
  new := h.new.trans (p.filterMap _).length_eq
  bound := h.bound
  held := h.held.trans (p.filterMap _)
  wait := h.wait.trans (p.countP_eq _)
  uids := (List.Perm.append_left _ (List.Perm.append_left _ (List.Perm.append_right _ ((p.filterMap _).map _)))).nodup h.uids
  fresh := fun u => (List.Perm.append_left _ (List.Perm.append_left _ (List.Perm.append_right _ ((p.filterMap _).map _)))).mem_iff.symm.trans (h.fresh u)
  idle := h.idle
  made := fun c hc => h.made c ((p.filterMap _).mem_iff.2 hc)
  failed := fun id hi => h.failed id (p.mem_iff.2 hi)
  busy := fun hs => let ⟨x, hx, ha⟩ := h.busy (p.mem_iff.2 hs); ⟨x, p.mem_iff.1 hx, ha⟩
  stopped := h.stopped

theorem split {l : List T} : ∀ {i : Nat} {y : T}, l[i]? = some y → ∃ R, l.Perm (y :: R) ∧ ∀ x, (l.set i x).Perm (x :: R) := by
  induction l with
  | nil => intro i y h; simp at h
  | cons a l ih =>
    intro i y h
    cases i with
    | zero =>
      simp only [List.getElem?_cons_zero, Option.some.injEq] at h
      subst h
      exact ⟨l, .refl _, fun x => .refl _⟩
    | succ i =>
      rw [List.getElem?_cons_succ] at h
      obtain ⟨R, h1, h2⟩ := ih h
      exact ⟨a :: R, (h1.cons a).trans (.swap ..), fun x => ((h2 x).cons a).trans (.swap ..)⟩

/-- The threads are not used by it. -/
theorem Inv.thr {s : St} {l : List T} (l' : List T) (h : Inv s l) : Inv { s with thr := l' } l := ⟨h.1, h.2, h.3, h.4, h.5, h.6, h.7, h.8, h.9, h.10, h.11, h.12, h.13, h.14, h.15⟩

theorem unused_spec (s : St) : ∀ n, n ≤ s.max → (∃ i, s.max - n ≤ i ∧ i < s.max ∧ s.info i ≠ .up) → unusedFrom s n < s.max ∧ s.info (unusedFrom s n) ≠ .up := by
  intro n
  induction n with
  | zero => intro _ ⟨i, h1, h2, _⟩; omega
  | succ n ih =>
    intro hn ⟨i, h1, h2, h3⟩
    rw [unusedFrom]
    split
    · rename_i h; exact ⟨by omega, h⟩
    · rename_i h
      refine ih (by omega) ⟨i, ?_, h2, h3⟩
      have : i ≠ s.max - (n + 1) := by intro he; rw [he] at h3; exact h h3
      omega

theorem unused {s : St} {l : List T} (h : Inv s l) (h0 : s.started = true) (hlt : s.conns.length + (s.used.length + s.newConns) < s.max) :
    getUnused s < s.max ∧ s.info (getUnused s) ≠ .up := by
  apply unused_spec s _ (Nat.le_refl _)
  refine Classical.byContradiction fun hn => ?_
  have hsub : List.range s.max ⊆ ids s l := by
    intro i hi
    refine h.all h0 i (Classical.byContradiction fun hu => hn ⟨i, by omega, List.mem_range.1 hi, hu⟩)
  have hle := (List.subperm_of_subset List.nodup_range hsub).length_le
  have hlen : (ids s l).length = s.conns.length + (s.used.length + s.newConns) := by simp [ids, h.new]
  rw [List.length_range, hlen] at hle
  omega

end Verif.ConnPool
