import Verif.Hash.Props
/- The single-value hashtable seen as a partial function, for the containers built on it. -/
namespace Verif.Hash

variable {K V : Type _}

/-- `h` holds exactly the bindings of `f`. -/
def Maps (c : Cfg K V) (h : HT K V) (f : K → Option V) : Prop :=
  ∃ s, R c false h s ∧ ∀ k, lookup c s k = (f k).map fun v => [v]

theorem Maps.get {c : Cfg K V} (hc : Lawful c) (hm : c.multi = false) {h : HT K V} {f} (H : Maps c h f) (k : K) :
    get c h k = some (f k) := by
  obtain ⟨s, h1, h2⟩ := H
  rw [get_R hc h1, h2 k]
  cases f k <;> simp [hm]

theorem Maps.insert {c : Cfg K V} (hc : Lawful c) (hm : c.multi = false) {h : HT K V} {f} (H : Maps c h f) (k : K) (v : V) :
    ∃ h', insert c h k v = some h' ∧ Maps c h' fun k' => if c.cmp k k' = 0 then some v else f k' := by
  obtain ⟨s, h1, h2⟩ := H
  obtain ⟨h', s', k1, k2, k3⟩ := sim_insert hc h1 k v
  refine ⟨h', k1, s', k3, fun k' => ?_⟩
  exact latest_spec hc hm [.insert k v] (.cons k2 (.nil _)) f h2 k'

theorem Maps.remove {c : Cfg K V} (hc : Lawful c) (hm : c.multi = false) {h : HT K V} {f} (H : Maps c h f) (k : K) :
    ∃ h', remove c h k = some ((f k).isSome, h') ∧ Maps c h' fun k' => if c.cmp k k' = 0 then none else f k' := by
  obtain ⟨s, h1, h2⟩ := H
  obtain ⟨h', k1, k2⟩ := sim_remove hc h1 k
  refine ⟨h', by rw [k1, h2 k]; simp, _, k2, fun k' => ?_⟩
  rw [lookup_remove hc, h2 k']
  dsimp only
  split <;> rfl

theorem Maps.create {c : Cfg K V} (hfill : c.fillpct < 100) (hm : c.multi = false) (hms : c.multiSorted = false)
    (hgl : c.getLast = false) (hks : c.keysSorted = false) :
    ∃ h, Verif.Hash.create c 16 = some h ∧ Maps c h fun _ => none := by
  have : ∃ h, Verif.Hash.create c 16 = some h := by
    unfold Verif.Hash.create
    simp only [hm, hms, hgl, hks]
    rw [if_neg (by omega), if_neg (by simp), if_neg (by simp)]
    exact ⟨_, rfl⟩
  obtain ⟨h, hh⟩ := this
  exact ⟨h, hh, [], create_R false (by decide) hh, fun _ => rfl⟩

theorem Maps.congr {c : Cfg K V} {h : HT K V} {f g} (H : Maps c h f) (e : ∀ k, f k = g k) : Maps c h g := by
  have : f = g := funext e
  exact this ▸ H

end Verif.Hash
