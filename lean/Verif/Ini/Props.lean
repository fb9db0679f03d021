import Verif.Ini.Copy
/- C108: the values of the keys of an INI object. -/
namespace Verif.Ini
open Verif.Chr (toLower)

/-- `M_ini_kv_set`, `M_ini_kv_insert`, `M_ini_kv_add_key`, `M_ini_kv_remove`, `M_ini_kv_remove_vals` and `M_ini_kv_remove_val_at`
in any order: the questions about a key give the values that the history left under this name, where names differ neither by case
nor, if blanks are ignored, by blanks; and every call returns whether it found what it needs.  Missing for the full statement: with
blanks ignored, keys with two blanks next to each other, or with nothing but blanks; these fail, see `hasKey_fails` and
`enumerate_fails`. -/
theorem store_partial (ign : Bool) (ops : List Op) (hp : ∀ o ∈ ops, Plain ign o.key) :
    (∀ k, Plain ign k → kvLen (run ign ops) k = (vals ign (nameOf ign k) ops).length ∧ (∀ i, kvGet (run ign ops) k i = (vals ign (nameOf ign k) ops)[i]?) ∧
      (kvHas (run ign ops) k = true ↔ vals ign (nameOf ign k) ops ≠ []) ∧ kvVals (run ign ops) k = vals ign (nameOf ign k) ops) ∧
    (∀ o, Plain ign o.key → (exec (run ign ops) o).1 = answer ign ops o) := by
  have h := run_after hp
  exact ⟨fun k hk => h.ask k hk, fun o ho => (exec_after h o ho).1⟩

/-- `M_ini_kv_keys`: every key that is there once, under a name that finds it.  Missing: as above, and a key that begins with the
separator, see `keys_fails`. -/
theorem keys_partial (ign : Bool) (ops : List Op) (hp : ∀ o ∈ ops, Plain ign o.key) (hs : ∀ o ∈ ops, Sectioned ign o.key) :
    (kvKeys (run ign ops)).map (fun k => (nameOf ign k).map toLower) = (names ign ops).map (·.map toLower) ∧
    (names ign ops).Pairwise fun a b => ¬ Same a b :=
  ⟨(run_shown hp hs).print _ rfl, (run_after hp).kvs.apart⟩

/-- `M_ini_duplicate`: a copy has the same values.  Missing: a key without values, which has a null pointer as its value in the copy,
see `duplicate_fails`. -/
theorem duplicate_partial (ign : Bool) (ops : List Op) (hp : ∀ o ∈ ops, Plain ign o.key) (hv : ∀ n ∈ names ign ops, vals ign n ops ≠ []) (k : List UInt8) (hk : Plain ign k) :
    kvVals (duplicate (run ign ops)) k = vals ign (nameOf ign k) ops ∧ kvLen (duplicate (run ign ops)) k = (vals ign (nameOf ign k) ops).length ∧
    kvKeys (duplicate (run ign ops)) = kvKeys (run ign ops) := by
  have h := run_after hp
  have hd := h.kvs.duplicate
  have hok := h.kvs.ok
  have hf : ∀ k, (if ∃ n ∈ names ign ops, Same n k then copied (vals ign k ops) else []) = vals ign k ops := by
    intro k
    split
    · rename_i hx
      obtain ⟨n, hn, hx⟩ := hx
      have := hv n hn
      have e : vals ign n ops = vals ign k ops := hok n k hx
      rw [e] at this
      exact if_neg this
    · rename_i hx
      exact (h.kvs.none k hx).symm
  have hd := hd.congr hf
  have e : intKey (duplicate (run ign ops)).ign k = nameOf ign k := by
    show intKey (run ign ops).ign k = nameOf ign k
    rw [h.flag]; exact intKey_plain hk
  have hl : kvLen (duplicate (run ign ops)) k = (vals ign (nameOf ign k) ops).length := by
    unfold kvLen Kvs.len
    rw [e]
    exact congrArg List.length (hd.getD _)
  have hg : ∀ i, kvGet (duplicate (run ign ops)) k i = (vals ign (nameOf ign k) ops)[i]? := by
    intro i
    unfold kvGet Kvs.get
    rw [e]
    exact congrArg (fun l : List (Option (List UInt8)) => l[i]?) (hd.getD _)
  refine ⟨?_, hl, rfl⟩
  unfold kvVals
  rw [hl]
  apply List.ext_getElem
  · simp
  · intro i h1 h2
    simp [hg, h2]

/-! ## Cases -/

/-- A key "s/K_1" with two values, one of them removed under another spelling; another key removed. -/
def sample : List Op :=
  [.set [115, 47, 75, 95, 49] (some [120]), .insert [115, 47, 107, 45, 49] (some [121]), .set [98] none, .removeAt [83, 47, 107, 49] 0, .remove [66]]

theorem plain_of_alone {k : List UInt8} (h : ∀ i < k.length, ¬ (Blank (k.getD i 0) ∧ Blank (k.getD (i + 1) 0))) (hv : Valid k → Valid (nameOf true k)) : Plain true k := by
  intro _
  refine ⟨?_, hv⟩
  rintro a c d b rfl hb
  have := h a.length (by simp)
  simp at this
  exact this hb.1 hb.2

theorem sample_plain : ∀ o ∈ sample, Plain true o.key := by
  intro o ho
  simp only [sample, List.mem_cons, List.not_mem_nil, or_false] at ho
  rcases ho with rfl | rfl | rfl | rfl | rfl <;> exact plain_of_alone (by decide) (by decide)

example : (∀ o ∈ sample, Plain true o.key) ∧ (∀ o ∈ sample, Sectioned true o.key) ∧ (∀ n ∈ names true sample, vals true n sample ≠ []) ∧
    vals true [115, 47, 107, 49] sample = [some [121]] ∧ names true sample = [[115, 47, 75, 49]] ∧
    kvKeys (run true sample) = [[115, 47, 75, 95, 49]] ∧ kvGet (run true sample) [83, 47, 75, 32, 49] 0 = some (some [121]) :=
  ⟨sample_plain, by unfold Sectioned; decide, by decide, by decide, by decide, by decide +kernel, by decide +kernel⟩

/-- Blanks ignored, a key with two blanks between "a" and "b": its value is there, but `M_ini_kv_has_key` says it is not. -/
theorem hasKey_fails : kvGet (run true [.set [97, 32, 32, 98] (some [120])]) [97, 32, 32, 98] 0 = some (some [120]) ∧
    kvHas (run true [.set [97, 32, 32, 98] (some [120])]) [97, 32, 32, 98] = false := by decide +kernel

/-- Blanks ignored, a key "-": the call fails, but the copy of the object (and what is written) has lost the key "b". -/
theorem enumerate_fails : (exec (run true []) (.set [45] (some [120]))).1 = false ∧
    kvGet (run true [.set [45] (some [120]), .set [98] (some [121])]) [98] 0 = some (some [121]) ∧
    kvGet (duplicate (run true [.set [45] (some [120]), .set [98] (some [121])])) [98] 0 = none := by decide +kernel

/-- The key "/x" is listed as "x", which is not a key. -/
theorem keys_fails : kvKeys (run false [.set [47, 120] (some [49])]) = [[120]] ∧ kvHas (run false [.set [47, 120] (some [49])]) [120] = false ∧
    kvHas (run false [.set [47, 120] (some [49])]) [47, 120] = true := by decide +kernel

/-- A key without values has one, a null pointer, in the copy. -/
theorem duplicate_fails : kvLen (run false [.addKey [98]]) [98] = 0 ∧ kvHas (run false [.addKey [98]]) [98] = false ∧
    kvLen (duplicate (run false [.addKey [98]])) [98] = 1 ∧ kvHas (duplicate (run false [.addKey [98]])) [98] = true := by decide +kernel

end Verif.Ini
