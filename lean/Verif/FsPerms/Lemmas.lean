import Verif.FsPerms.Spec

/-!
# Lemmas about file permissions
-/

namespace Verif.FsPerms

theorem and_pow (m : BitVec 32) (i : Nat) (hi : i < 32) :
    (m &&& BitVec.twoPow 32 i ≠ 0#32) ↔ m.getLsbD i = true := by
  rw [BitVec.and_twoPow]
  constructor
  · intro h
    rcases hb : m.getLsbD i with _ | _
    · rw [hb] at h; exact absurd rfl h
    · rfl
  · intro h
    rw [h]
    intro hc
    have := congrArg (fun x => BitVec.getLsbD x i) hc
    simp [hi] at this

theorem digit_lt (who : Who) (perm : Perm) : 3 * who.digit + perm.place < 9 := by
  cases who <;> cases perm <;> decide

theorem pow_get (i j : Nat) (hj : j < 32) : (BitVec.twoPow 32 i).getLsbD j = decide (i = j) := by
  rw [BitVec.getLsbD_twoPow]
  by_cases h : i = j
  · subst h; simp [hj]
  · simp [h]

theorem not_get (x : BitVec 32) (j : Nat) (hj : j < 32) : (~~~ x).getLsbD j = !x.getLsbD j := by
  rw [BitVec.getLsbD_not]
  simp only [hj, decide_true, Bool.true_and]

theorem addBits_get (m f : BitVec 32) (a b c j : Nat) (hj : j < 32) :
    (addBits m f (BitVec.twoPow 32 a) (BitVec.twoPow 32 b) (BitVec.twoPow 32 c)).getLsbD j =
      (m.getLsbD j || ((f.getLsbD 0 && decide (a = j)) ||
        (f.getLsbD 1 && decide (b = j)) || (f.getLsbD 2 && decide (c = j)))) := by
  unfold addBits mRead mWrite mExec
  simp only [and_pow f 0 (by decide), and_pow f 1 (by decide), and_pow f 2 (by decide)]
  rcases f.getLsbD 0 with _ | _ <;> rcases f.getLsbD 1 with _ | _ <;>
    rcases f.getLsbD 2 with _ | _ <;>
    simp only [BitVec.getLsbD_or, pow_get _ _ hj, if_true, if_false, Bool.false_eq_true,
      Bool.true_and, Bool.false_and, Bool.or_false, Bool.false_or, Bool.or_assoc]

theorem delBits_get (m f : BitVec 32) (a b c j : Nat) (hj : j < 32) :
    (delBits m f (BitVec.twoPow 32 a) (BitVec.twoPow 32 b) (BitVec.twoPow 32 c)).getLsbD j =
      (m.getLsbD j && !((f.getLsbD 0 && decide (a = j)) ||
        (f.getLsbD 1 && decide (b = j)) || (f.getLsbD 2 && decide (c = j)))) := by
  unfold delBits mRead mWrite mExec
  simp only [and_pow f 0 (by decide), and_pow f 1 (by decide), and_pow f 2 (by decide)]
  rcases f.getLsbD 0 with _ | _ <;> rcases f.getLsbD 1 with _ | _ <;>
    rcases f.getLsbD 2 with _ | _ <;>
    simp only [BitVec.getLsbD_and, pow_get _ _ hj, not_get _ _ hj, if_true, if_false,
      Bool.false_eq_true, Bool.true_and, Bool.false_and, Bool.or_false, Bool.false_or,
      Bool.or_assoc, Bool.and_assoc, Bool.not_or, Bool.not_false, Bool.and_true]

theorem readBits_get (m : BitVec 32) (a b c : Nat) (ha : a < 32) (hb : b < 32) (hc : c < 32) :
    (readBits m (BitVec.twoPow 32 a) (BitVec.twoPow 32 b) (BitVec.twoPow 32 c)).getLsbD 0
        = m.getLsbD a ∧
      (readBits m (BitVec.twoPow 32 a) (BitVec.twoPow 32 b) (BitVec.twoPow 32 c)).getLsbD 1
        = m.getLsbD b ∧
      (readBits m (BitVec.twoPow 32 a) (BitVec.twoPow 32 b) (BitVec.twoPow 32 c)).getLsbD 2
        = m.getLsbD c := by
  unfold readBits mRead mWrite mExec
  simp only [and_pow m a ha, and_pow m b hb, and_pow m c hc]
  rcases m.getLsbD a with _ | _ <;> rcases m.getLsbD b with _ | _ <;>
    rcases m.getLsbD c with _ | _ <;> decide

/-- What one class of `update` does to one bit, in terms of the request. -/
theorem updatePart_get (m : BitVec 32) (isdir : Bool) (p dp : Part) (a b c j : Nat) (hj : j < 32)
    (perm : Perm) (hbit : j = match perm with | .read => a | .write => b | .exec => c)
    (hab : a ≠ b) (hac : a ≠ c) (hbc : b ≠ c) :
    (updatePart m isdir p dp (BitVec.twoPow 32 a) (BitVec.twoPow 32 b)
        (BitVec.twoPow 32 c)).getLsbD j = want (pick isdir p dp) perm (m.getLsbD j) := by
  unfold updatePart
  rcases pick isdir p dp with _ | ⟨f, t⟩
  · rfl
  · cases t <;> cases perm <;> simp only at hbit <;> subst hbit <;>
      simp only [addBits_get _ _ _ _ _ _ hj, delBits_get _ _ _ _ _ _ hj, want, named,
        BitVec.getLsbD_and, BitVec.getLsbD_or, not_get _ _ hj, pow_get _ _ hj, hab, hac, hbc,
        Ne.symm hab, Ne.symm hac, Ne.symm hbc, decide_true, decide_false] <;> simp

/-- A class leaves the bits of the others alone. -/
theorem updatePart_other (m : BitVec 32) (isdir : Bool) (p dp : Part) (a b c j : Nat)
    (ha : a ≠ j) (hb : b ≠ j) (hc : c ≠ j) :
    (updatePart m isdir p dp (BitVec.twoPow 32 a) (BitVec.twoPow 32 b)
        (BitVec.twoPow 32 c)).getLsbD j = m.getLsbD j := by
  unfold updatePart
  rcases pick isdir p dp with _ | ⟨f, t⟩
  · rfl
  · by_cases hj : j < 32
    · cases t <;> simp only [addBits_get _ _ _ _ _ _ hj, delBits_get _ _ _ _ _ _ hj,
        BitVec.getLsbD_and, BitVec.getLsbD_or, not_get _ _ hj, pow_get _ _ hj, ha, hb, hc,
        decide_false] <;> simp
    · rw [BitVec.getLsbD_of_ge _ _ (by omega), BitVec.getLsbD_of_ge _ _ (by omega)]

/-- What the getters say is what `pick` chooses. -/
theorem asks_user (p : Perms) (d : Bool) : asks p d .user = pick d p.u p.du := by
  unfold asks says pick getDirIsset getIsset
  cases d <;> rcases p.du.set with _ | _ <;> rcases p.u.set with _ | _ <;> rfl

theorem asks_group (p : Perms) (d : Bool) : asks p d .group = pick d p.g p.dg := by
  unfold asks says pick getDirIsset getIsset
  cases d <;> rcases p.dg.set with _ | _ <;> rcases p.g.set with _ | _ <;> rfl

theorem asks_other (p : Perms) (d : Bool) : asks p d .other = pick d p.o p.dO := by
  unfold asks says pick getDirIsset getIsset
  cases d <;> rcases p.dO.set with _ | _ <;> rcases p.o.set with _ | _ <;> rfl

/-- The bits the update produces: what was there, and what is asked for. -/
theorem update_get (m : BitVec 32) (p : Perms) (d : Bool) (who : Who) (perm : Perm) :
    allowed (update m p d) who perm =
      (allowed m who perm || want (asks p d who) perm (allowed m who perm)) := by
  unfold update allowed sIRUSR sIWUSR sIXUSR sIRGRP sIWGRP sIXGRP sIROTH sIWOTH sIXOTH
  simp only [BitVec.getLsbD_or, BitVec.getLsbD_zero, Bool.false_or]
  cases who
  · rw [asks_user,
      updatePart_get m d p.u p.du 8 7 6 _ (by have := digit_lt .user perm; omega) perm
        (by cases perm <;> rfl) (by decide) (by decide) (by decide),
      updatePart_other m d p.g p.dg 5 4 3 _ (by cases perm <;> decide) (by cases perm <;> decide)
        (by cases perm <;> decide),
      updatePart_other m d p.o p.dO 2 1 0 _ (by cases perm <;> decide) (by cases perm <;> decide)
        (by cases perm <;> decide)]
    generalize m.getLsbD _ = x
    cases x <;> simp
  · rw [asks_group,
      updatePart_other m d p.u p.du 8 7 6 _ (by cases perm <;> decide) (by cases perm <;> decide)
        (by cases perm <;> decide),
      updatePart_get m d p.g p.dg 5 4 3 _ (by have := digit_lt .group perm; omega) perm
        (by cases perm <;> rfl) (by decide) (by decide) (by decide),
      updatePart_other m d p.o p.dO 2 1 0 _ (by cases perm <;> decide) (by cases perm <;> decide)
        (by cases perm <;> decide)]
    generalize m.getLsbD _ = x
    cases x <;> simp
  · rw [asks_other,
      updatePart_other m d p.u p.du 8 7 6 _ (by cases perm <;> decide) (by cases perm <;> decide)
        (by cases perm <;> decide),
      updatePart_other m d p.g p.dg 5 4 3 _ (by cases perm <;> decide) (by cases perm <;> decide)
        (by cases perm <;> decide),
      updatePart_get m d p.o p.dO 2 1 0 _ (by have := digit_lt .other perm; omega) perm
        (by cases perm <;> rfl) (by decide) (by decide) (by decide)]
    generalize m.getLsbD _ = x
    cases x <;> simp

/-- What a request gives a new file: the permissions it names, unless it removes. -/
theorem toModePart_get (d : Bool) (p dp : Part) (a b c j : Nat) (hj : j < 32) :
    (toModePart d p dp (BitVec.twoPow 32 a) (BitVec.twoPow 32 b)
        (BitVec.twoPow 32 c)).getLsbD j =
      ((want (pick d p dp) .read false && decide (a = j)) ||
        (want (pick d p dp) .write false && decide (b = j)) ||
        (want (pick d p dp) .exec false && decide (c = j))) := by
  unfold toModePart
  rcases pick d p dp with _ | ⟨f, t⟩
  · simp [want]
  · cases t <;> simp [want, named, addBits_get _ _ _ _ _ _ hj]

theorem toMode_get (p : Perms) (d : Bool) (who : Who) (perm : Perm) :
    allowed (toMode p d) who perm = want (asks p d who) perm false := by
  unfold toMode allowed sIRUSR sIWUSR sIXUSR sIRGRP sIWGRP sIXGRP sIROTH sIWOTH sIXOTH
  have hj := digit_lt who perm
  simp only [BitVec.getLsbD_or, BitVec.getLsbD_zero, Bool.false_or]
  rw [toModePart_get d p.u p.du 8 7 6 _ (by omega), toModePart_get d p.g p.dg 5 4 3 _ (by omega),
    toModePart_get d p.o p.dO 2 1 0 _ (by omega)]
  cases who <;> cases perm <;>
    simp [Who.digit, Perm.place, asks_user, asks_group, asks_other]

theorem toMode_high (p : Perms) (d : Bool) (j : Nat) (hj : 9 ≤ j) :
    (toMode p d).getLsbD j = false := by
  by_cases h32 : j < 32
  · unfold toMode sIRUSR sIWUSR sIXUSR sIRGRP sIWGRP sIXGRP sIROTH sIWOTH sIXOTH
    simp only [BitVec.getLsbD_or, BitVec.getLsbD_zero, Bool.false_or]
    rw [toModePart_get d p.u p.du 8 7 6 _ h32, toModePart_get d p.g p.dg 5 4 3 _ h32,
      toModePart_get d p.o p.dO 2 1 0 _ h32]
    have : ∀ k, k < 9 → decide (k = j) = false := fun k hk => by simp; omega
    rw [this 8 (by decide), this 7 (by decide), this 6 (by decide), this 5 (by decide),
      this 4 (by decide), this 3 (by decide), this 2 (by decide), this 1 (by decide),
      this 0 (by decide)]
    simp
  · exact BitVec.getLsbD_of_ge _ _ (by omega)

/-- Reading the permissions of a path. -/
theorem infoPerms_says (m : BitVec 32) (who : Who) :
    ∃ f, says (infoPerms m) false who = some (f, .exact) ∧
      ∀ perm, named f perm = allowed m who perm := by
  cases who
  · refine ⟨readBits m sIRUSR sIWUSR sIXUSR, rfl, fun perm => ?_⟩
    have := readBits_get m 8 7 6 (by decide) (by decide) (by decide)
    cases perm
    · exact this.1
    · exact this.2.1
    · exact this.2.2
  · refine ⟨readBits m sIRGRP sIWGRP sIXGRP, rfl, fun perm => ?_⟩
    have := readBits_get m 5 4 3 (by decide) (by decide) (by decide)
    cases perm
    · exact this.1
    · exact this.2.1
    · exact this.2.2
  · refine ⟨readBits m sIROTH sIWOTH sIXOTH, rfl, fun perm => ?_⟩
    have := readBits_get m 2 1 0 (by decide) (by decide) (by decide)
    cases perm
    · exact this.1
    · exact this.2.1
    · exact this.2.2

theorem infoPerms_dir (m : BitVec 32) (who : Who) : says (infoPerms m) true who = none := by
  cases who <;> rfl

theorem info_mode (m : BitVec 32) (who : Who) (perm : Perm) :
    allowed (toMode (infoPerms m) false) who perm = allowed m who perm := by
  obtain ⟨f, hf, hn⟩ := infoPerms_says m who
  rw [toMode_get]
  simp only [asks, hf, want, hn]

/-- A bit above the nine is never set by the update of a mode that has none. -/
theorem update_high (m : BitVec 32) (p : Perms) (d : Bool) (j : Nat) (hj : 9 ≤ j) :
    (update m p d).getLsbD j = m.getLsbD j := by
  unfold update sIRUSR sIWUSR sIXUSR sIRGRP sIWGRP sIXGRP sIROTH sIWOTH sIXOTH
  simp only [BitVec.getLsbD_or, BitVec.getLsbD_zero, Bool.false_or]
  rw [updatePart_other m d p.u p.du 8 7 6 j (by omega) (by omega) (by omega),
    updatePart_other m d p.g p.dg 5 4 3 j (by omega) (by omega) (by omega),
    updatePart_other m d p.o p.dO 2 1 0 j (by omega) (by omega) (by omega)]
  simp

/-- What merging does to one part. -/
theorem says_merge (d s : Perms) (dir : Bool) (who : Who) :
    ∃ dp sp : Part, says d dir who = (if dp.set then some (dp.mode, dp.type) else none) ∧
      says s dir who = (if sp.set then some (sp.mode, sp.type) else none) ∧
      says (merge (some d) s).dest dir who =
        (if (mergePart dp sp).set then some ((mergePart dp sp).mode, (mergePart dp sp).type)
          else none) := by
  unfold merge
  cases dir <;> cases who
  · refine ⟨d.u, s.u, rfl, rfl, ?_⟩
    cases s.user <;> cases s.group <;> rfl
  · refine ⟨d.g, s.g, rfl, rfl, ?_⟩
    cases s.user <;> cases s.group <;> rfl
  · refine ⟨d.o, s.o, rfl, rfl, ?_⟩
    cases s.user <;> cases s.group <;> rfl
  · refine ⟨d.du, s.du, rfl, rfl, ?_⟩
    cases s.user <;> cases s.group <;> rfl
  · refine ⟨d.dg, s.dg, rfl, rfl, ?_⟩
    cases s.user <;> cases s.group <;> rfl
  · refine ⟨d.dO, s.dO, rfl, rfl, ?_⟩
    cases s.user <;> cases s.group <;> rfl

theorem named_or (a b : BitVec 32) (perm : Perm) :
    named (a ||| b) perm = (named a perm || named b perm) := by
  cases perm <;> simp [named]

theorem named_diff (a b : BitVec 32) (perm : Perm) :
    named (a &&& ~~~ b) perm = (named a perm && !named b perm) := by
  cases perm <;> simp [named]

end Verif.FsPerms
