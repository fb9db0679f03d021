import Verif.FsPerms.Lemmas

/-!
# C118: file permissions
-/

namespace Verif.FsPerms

/-- **C118** After any series of setting and clearing calls on a new object, the getters report,
for each class and for its directory override, the last thing said about it, and nothing (flags
0, type exact) when nothing was said or it was cleared. -/
theorem getters (ops : List Op) (dir : Bool) (who : Who) :
    ∃ r, Last dir who ops r ∧ says (ops.foldl Op.run create) dir who = r ∧
      (r = none → (if dir then getDirMode (ops.foldl Op.run create) who
          else getMode (ops.foldl Op.run create) who) = 0#32 ∧
        (if dir then getDirType (ops.foldl Op.run create) who
          else getType (ops.foldl Op.run create) who) = .exact) := by
  have H : ∀ n (ops : List Op), ops.length = n → ∃ r, Last dir who ops r ∧
      says (ops.foldl Op.run create) dir who = r ∧
      (r = none → (if dir then getDirMode (ops.foldl Op.run create) who
          else getMode (ops.foldl Op.run create) who) = 0#32 ∧
        (if dir then getDirType (ops.foldl Op.run create) who
          else getType (ops.foldl Op.run create) who) = .exact) := by
    intro n
    induction n with
    | zero =>
      intro ops h
      obtain rfl := List.length_eq_zero_iff.mp h
      refine ⟨none, .start, ?_, fun _ => ?_⟩
      · cases dir <;> cases who <;> rfl
      · cases dir <;> cases who <;> exact ⟨rfl, rfl⟩
    | succ n ih =>
      intro ops h
      rcases List.eq_nil_or_concat ops with rfl | ⟨as, op, rfl⟩
      · cases h
      · rw [List.concat_eq_append] at h ⊢
        obtain ⟨r, hl, hs, hr⟩ := ih as (by simpa using h)
        rw [List.foldl_append, List.foldl_cons, List.foldl_nil]
        rcases hd : op.decides dir who with _ | r'
        · refine ⟨r, .kept hd hl, ?_, ?_⟩ <;>
            (generalize as.foldl Op.run create = q at *
             rcases op with ⟨m, w, t⟩ | ⟨m, w, t⟩ | ⟨w⟩ | ⟨w⟩ <;> cases dir <;> cases who <;> cases w <;>
               first | (simp [Op.decides] at hd; done) | assumption)
        · refine ⟨r', .said hd, ?_, ?_⟩ <;>
            (generalize as.foldl Op.run create = q at *
             rcases op with ⟨m, w, t⟩ | ⟨m, w, t⟩ | ⟨w⟩ | ⟨w⟩ <;> cases dir <;> cases who <;> cases w <;>
               simp [Op.decides] at hd <;> subst hd <;>
               first | rfl | (intro hc; cases hc; done) | (intro _; exact ⟨rfl, rfl⟩))
  exact H _ ops rfl

example : says ([Op.set 6#32 .user .exact, .setDir 1#32 .user .add, .unset .group].foldl
    Op.run create) true .user = some (1#32, .add) := by decide

/-! ## Applying permissions to a path -/

/-- Full statement: after applying an object to a path, each class has each permission exactly as
asked (exactly these, these in addition, all but these, or as before).  Proved only where what is
asked for is no less than what the path had; missing, because it is false (`set_perms_fails`): the
case in which a permission is to be taken away. -/
theorem set_perms_partial (p : Perms) (f : File) (who : Who) (perm : Perm)
    (h : allowed f.mode who perm = true →
      want (asks p f.isdir who) perm (allowed f.mode who perm) = true) :
    allowed (setPerms p f).mode who perm =
      want (asks p f.isdir who) perm (allowed f.mode who perm) := by
  have hm : (setPerms p f).mode = update (toMode (infoPerms f.mode) false) p f.isdir := by
    unfold setPerms
    split <;> rfl
  rw [hm, update_get, info_mode]
  rcases hw : allowed f.mode who perm with _ | _
  · simp
  · rw [hw] at h
    rw [h rfl]
    rfl

example : (setPerms (setMode create 3#32 .user .add) ⟨false, 0o440#32, 5, 6⟩).mode = 0o640#32 := by
  decide

/-- The code: no permission is ever taken away, whatever the object asks for. -/
theorem never_removes (p : Perms) (f : File) (who : Who) (perm : Perm)
    (h : allowed f.mode who perm = true) : allowed (setPerms p f).mode who perm = true := by
  have hm : (setPerms p f).mode = update (toMode (infoPerms f.mode) false) p f.isdir := by
    unfold setPerms
    split <;> rfl
  rw [hm, update_get, info_mode, h]
  rfl

/-- The full statement of `set_perms_partial` is false: asking for exactly `rw-------` on a file
that anyone can write leaves it as it was. -/
theorem set_perms_fails : ∃ (p : Perms) (f : File),
    (∀ who, (asks p false who).map Prod.snd = some .exact) ∧ asks p false .other = some (0#32, .exact) ∧
      f.mode = 0o666#32 ∧ (setPerms p f).mode = 0o666#32 :=
  ⟨[Op.set 3#32 .user .exact, .set 0#32 .group .exact, .set 0#32 .other .exact].foldl Op.run create,
    ⟨false, 0o666#32, 1, 1⟩, by intro who; cases who <;> decide, by decide, by decide, by decide⟩

/-- Bits other than the nine are not kept: applying an object that asks for nothing clears the
sticky bit of a directory. -/
theorem special_fails : ∃ (f : File), (∀ isdir who, asks create isdir who = none) ∧
    f.isdir = true ∧ f.mode = 0o1777#32 ∧ (setPerms create f).mode = 0o777#32 :=
  ⟨⟨true, 0o1777#32, 0, 0⟩, by intro d who; cases d <;> cases who <;> decide, by decide, by decide,
    by decide⟩

/-- Bits other than the nine never appear in the mode given to the system. -/
theorem only_nine (p : Perms) (f : File) (j : Nat) (hj : 9 ≤ j) :
    (setPerms p f).mode.getLsbD j = false := by
  have hm : (setPerms p f).mode = update (toMode (infoPerms f.mode) false) p f.isdir := by
    unfold setPerms
    split <;> rfl
  rw [hm, update_high _ _ _ _ hj, toMode_high _ _ _ hj]

/-- The owner and the group of the path change to those set in the object, and only if set. -/
theorem owner (dbu dbg : Name → Option Nat) (u g : Option Name) (p : Perms) (f : File)
    (hu : p.user = none) (hg : p.group = none) (hne : u ≠ some []) :
    let r := setUser dbu p u
    let r' := setGroup dbg r.1 g
    (r.2 = true ↔ ∀ n, u = some n → (dbu n).isSome) ∧
      (r'.2 = true ↔ ∀ n, g = some n → (dbg n).isSome) ∧
      (setPerms r'.1 f).uid = (u.bind dbu).getD f.uid ∧
      (setPerms r'.1 f).gid = (g.bind dbg).getD f.gid ∧
      r'.1.user = (u.bind fun n => (dbu n).map fun _ => n) ∧
      r'.1.group = (g.bind fun n => (dbg n).map fun _ => n) ∧
      (setPerms r'.1 f).isdir = f.isdir ∧
      ∀ dir who, says r'.1 dir who = says p dir who := by
  rcases u with _ | u <;> rcases g with _ | g
  · simp only [setUser, setGroup]
    refine ⟨?_, ?_, ?_, ?_, ?_, ?_, ?_, ?_⟩ <;> first | rfl | simp [setPerms]
    exact ⟨fun who => by cases who <;> rfl, fun who => by cases who <;> rfl⟩
  · rcases hdg : dbg g with _ | gi <;> simp only [setUser, setGroup, hdg]
    · refine ⟨?_, ?_, ?_, ?_, ?_, ?_, ?_, ?_⟩ <;> simp [setPerms, hg, hdg]
      exact ⟨fun who => by cases who <;> rfl, fun who => by cases who <;> rfl⟩
    · refine ⟨?_, ?_, ?_, ?_, ?_, ?_, ?_, ?_⟩ <;> simp [setPerms, hdg]
      exact ⟨fun who => by cases who <;> rfl, fun who => by cases who <;> rfl⟩
  · have hne' : u ≠ [] := fun h => hne (by rw [h])
    rcases hdu : dbu u with _ | ui <;> simp only [setUser, setGroup, hdu, hne', if_false]
    · refine ⟨?_, ?_, ?_, ?_, ?_, ?_, ?_, ?_⟩ <;> simp [setPerms, hu, hdu]
      exact ⟨fun who => by cases who <;> rfl, fun who => by cases who <;> rfl⟩
    · refine ⟨?_, ?_, ?_, ?_, ?_, ?_, ?_, ?_⟩ <;> simp [setPerms, hdu]
      exact ⟨fun who => by cases who <;> rfl, fun who => by cases who <;> rfl⟩
  · have hne' : u ≠ [] := fun h => hne (by rw [h])
    rcases hdu : dbu u with _ | ui <;> rcases hdg : dbg g with _ | gi <;>
      simp only [setUser, setGroup, hdu, hdg, hne', if_false]
    · refine ⟨?_, ?_, ?_, ?_, ?_, ?_, ?_, ?_⟩ <;> simp [setPerms, hu, hg, hdu, hdg]
    · refine ⟨?_, ?_, ?_, ?_, ?_, ?_, ?_, ?_⟩ <;> simp [setPerms, hu, hdu, hdg]
      exact ⟨fun who => by cases who <;> rfl, fun who => by cases who <;> rfl⟩
    · refine ⟨?_, ?_, ?_, ?_, ?_, ?_, ?_, ?_⟩ <;> simp [setPerms, hg, hdu, hdg]
      exact ⟨fun who => by cases who <;> rfl, fun who => by cases who <;> rfl⟩
    · refine ⟨?_, ?_, ?_, ?_, ?_, ?_, ?_, ?_⟩ <;> simp [setPerms, hdu, hdg]
      exact ⟨fun who => by cases who <;> rfl, fun who => by cases who <;> rfl⟩

example : (setPerms (setUser (fun _ => some 7) create (some [114])).1 ⟨false, 0#32, 5, 6⟩)
    = ⟨false, 0#32, 7, 6⟩ := by decide

/-! ## New files, and reading permissions -/

/-- A file created with an object gets the permissions the object sets or adds, and no others. -/
theorem new_file (p : Perms) (isdir : Bool) :
    (∀ who perm, allowed (toMode p isdir) who perm = want (asks p isdir who) perm false) ∧
      ∀ j, 9 ≤ j → (toMode p isdir).getLsbD j = false :=
  ⟨fun who perm => toMode_get p isdir who perm, fun j hj => toMode_high p isdir j hj⟩

example : toMode ([Op.set 3#32 .user .exact, .set 1#32 .group .add, .set 7#32 .other .remove].foldl
    Op.run create) false = 0o640#32 := by decide

/-- Full statement: a directory created with an object gets what the object asks for directories.
Proved only for an object without overrides; missing, because it is false (`mkdir_fails`): with an
override, creating the directory ignores it. -/
theorem mkdir_partial (p : Perms) (h : ∀ who, says p true who = none) (who : Who) (perm : Perm) :
    allowed (mkdirMode (some p)) who perm = want (asks p true who) perm false := by
  show allowed (toMode p false) who perm = _
  rw [toMode_get]
  simp only [asks, h]

example : mkdirMode (some (setMode create 7#32 .user .exact)) = 0o700#32 := by decide

/-- The full statement of `mkdir_partial` is false: files `rw-`, directories `rwx`; the directory is
created `rw-`, so that nobody can enter it. -/
theorem mkdir_fails : ∃ p : Perms, asks p true .user = some (7#32, .exact) ∧
    mkdirMode (some p) = 0o600#32 :=
  ⟨[Op.set 3#32 .user .exact, .setDir 7#32 .user .exact].foldl Op.run create, by decide, by decide⟩

/-- The permissions read from a path are those it has, for each class exactly; there are no
overrides, no user and no group. -/
theorem read_perms (mode : BitVec 32) (who : Who) :
    (∃ flags, says (infoPerms mode) false who = some (flags, .exact) ∧
      ∀ perm, named flags perm = allowed mode who perm) ∧
      says (infoPerms mode) true who = none ∧
      (infoPerms mode).user = none ∧ (infoPerms mode).group = none :=
  ⟨infoPerms_says mode who, infoPerms_dir mode who, rfl, rfl⟩

/-- Applying to a path the permissions read from another makes it allow all the other allows; it
ends up the same only when it allowed no more before. -/
theorem copy_partial (mode : BitVec 32) (f : File)
    (h : ∀ who perm, allowed f.mode who perm = true → allowed mode who perm = true)
    (who : Who) (perm : Perm) :
    allowed (setPerms (infoPerms mode) f).mode who perm = allowed mode who perm := by
  obtain ⟨fl, hs, hn⟩ := infoPerms_says mode who
  have ha : asks (infoPerms mode) f.isdir who = some (fl, .exact) := by
    unfold asks
    rw [infoPerms_dir, hs]
    cases f.isdir <;> rfl
  rw [set_perms_partial, ha]
  · exact hn perm
  · intro h1
    rw [ha]
    show named fl perm = true
    rw [hn]
    exact h who perm h1

example : (setPerms (infoPerms 0o644#32) ⟨false, 0o600#32, 1, 1⟩).mode = 0o644#32 := by decide

/-- Copying private permissions to a path that others can read leaves it readable. -/
theorem copy_fails : ∃ (mode : BitVec 32) (f : File), mode = 0o600#32 ∧ f.mode = 0o644#32 ∧
    (setPerms (infoPerms mode) f).mode = 0o644#32 :=
  ⟨0o600#32, ⟨false, 0o644#32, 1, 1⟩, rfl, rfl, by decide⟩

/-- The question asked of the system is exactly about the permissions named; with none it asks
whether the path exists (mode 0). -/
theorem can_access (flags : BitVec 32) :
    (∀ perm, (accessMode flags).getLsbD perm.place = named flags perm) ∧
      (∀ j, 3 ≤ j → (accessMode flags).getLsbD j = false) := by
  have hacc : accessMode flags =
      addBits 0#32 flags (BitVec.twoPow 32 2) (BitVec.twoPow 32 1) (BitVec.twoPow 32 0) := by
    have h4 : BitVec.twoPow 32 2 = 4#32 := by decide
    have h2 : BitVec.twoPow 32 1 = 2#32 := by decide
    have h1 : BitVec.twoPow 32 0 = 1#32 := by decide
    unfold accessMode addBits
    simp only [ite_self, h4, h2, h1]
  have key : ∀ j, (accessMode flags).getLsbD j =
      ((named flags .read && decide (2 = j)) || (named flags .write && decide (1 = j)) ||
        (named flags .exec && decide (0 = j))) := by
    intro j
    by_cases hj : j < 32
    · rw [hacc, addBits_get _ _ _ _ _ _ hj]
      simp [named]
    · rw [BitVec.getLsbD_of_ge _ _ (by omega)]
      have h2 : decide (2 = j) = false := by simp; omega
      have h1 : decide (1 = j) = false := by simp; omega
      have h0 : decide (0 = j) = false := by simp; omega
      rw [h0, h1, h2]
      simp
  refine ⟨fun perm => ?_, fun j hj => ?_⟩
  · rw [key]
    cases perm <;> simp [Perm.place]
  · rw [key]
    have h2 : decide (2 = j) = false := by simp; omega
    have h1 : decide (1 = j) = false := by simp; omega
    have h0 : decide (0 = j) = false := by simp; omega
    rw [h0, h1, h2]
    simp

example : accessMode 3#32 = 6#32 := by decide

/-! ## Copying and merging objects -/

/-- Full statement: a duplicate is the same as the original.  Proved only when what the original
says about the group is of type exact; missing, because it is false (`dup_fails`). -/
theorem dup_partial (p : Perms) (h : getType p .group = .exact) : dup p = p := by
  rcases p with ⟨un, gn, ui, gi, u, ⟨gs, gm, gt⟩, o, du, dg, dO⟩
  change gt = .exact at h
  subst h
  rfl

/-- In any case everything but that type is the same. -/
theorem dup_rest (p : Perms) :
    (dup p).user = p.user ∧ (dup p).group = p.group ∧ (dup p).uid = p.uid ∧ (dup p).gid = p.gid ∧
      (∀ who, getIsset (dup p) who = getIsset p who ∧ getMode (dup p) who = getMode p who) ∧
      (∀ who, who ≠ .group → getType (dup p) who = getType p who) ∧
      ∀ who, says (dup p) true who = says p true who := by
  refine ⟨rfl, rfl, rfl, rfl, fun who => ?_, fun who hw => ?_, fun who => ?_⟩
  · cases who <;> exact ⟨rfl, rfl⟩
  · cases who
    · rfl
    · exact absurd rfl hw
    · rfl
  · cases who <;> rfl

example : dup (setDirMode (setMode create 5#32 .user .remove) 1#32 .group .add) =
    setDirMode (setMode create 5#32 .user .remove) 1#32 .group .add := by decide

/-- The full statement of `dup_partial` is false: the duplicate of an object that takes write
permission from the group gives it to the group. -/
theorem dup_fails : ∃ p : Perms, asks p false .group = some (2#32, .remove) ∧
    asks (dup p) false .group = some (2#32, .exact) ∧
    toMode p false = 0o000#32 ∧ toMode (dup p) false = 0o020#32 :=
  ⟨setMode create 2#32 .group .remove, by decide, by decide, by decide, by decide⟩

/-- Merging into an object that says something exact, or nothing, about a class: the result asks
for what asking the first and then the second would. -/
theorem merge_exact (d s : Perms) (dir : Bool) (who : Who) (perm : Perm) (old : Bool)
    (h : ∀ r, says d dir who = some r → r.2 = .exact) :
    want (says (merge (some d) s).dest dir who) perm old =
      want (says s dir who) perm (want (says d dir who) perm old) := by
  obtain ⟨⟨ds, dm, dt⟩, ⟨ss, sm, st⟩, hd, hs, hm⟩ := says_merge d s dir who
  rw [hd] at h
  rw [hd, hs, hm]
  cases ss
  · rfl
  · cases ds
    · cases st <;> rfl
    · have : dt = .exact := h (dm, dt) rfl
      subst this
      cases st
      · rfl
      · exact named_or dm sm perm
      · exact named_diff dm sm perm

example : says (merge (some (setMode create 3#32 .user .exact)) (setMode create 2#32 .user .remove)).dest
    false .user = some (1#32, .exact) := by decide

/-- Merging into an object that says something exact keeps it exact. -/
theorem merge_stays_exact (d s : Perms) (dir : Bool) (who : Who) (fl : BitVec 32)
    (h : says d dir who = some (fl, .exact)) :
    ∃ fl', says (merge (some d) s).dest dir who = some (fl', .exact) := by
  obtain ⟨⟨ds, dm, dt⟩, ⟨ss, sm, st⟩, hd, hs, hm⟩ := says_merge d s dir who
  rw [hd] at h
  rw [hm]
  cases ds
  · cases h
  · simp only [if_true, Option.some.injEq, Prod.mk.injEq] at h
    obtain ⟨rfl, rfl⟩ := h
    cases ss
    · exact ⟨_, rfl⟩
    · cases st <;> exact ⟨_, rfl⟩

/-- Merging into an object that only adds or removes for a class, or says nothing: what the second
says replaces it, unless the second says nothing. -/
theorem merge_replaces (d s : Perms) (dir : Bool) (who : Who)
    (h : ∀ r, says d dir who = some r → r.2 ≠ .exact) :
    says (merge (some d) s).dest dir who =
      match says s dir who with
      | some r => some r
      | none => says d dir who := by
  obtain ⟨⟨ds, dm, dt⟩, ⟨ss, sm, st⟩, hd, hs, hm⟩ := says_merge d s dir who
  rw [hd] at h
  rw [hd, hs, hm]
  cases ss
  · rfl
  · cases ds
    · cases st <;> rfl
    · have : dt ≠ .exact := h (dm, dt) rfl
      cases dt
      · exact absurd rfl this
      · cases st <;> rfl
      · cases st <;> rfl

example : says (merge (some (setMode create 1#32 .user .add)) (setMode create 2#32 .user .add)).dest
    false .user = some (2#32, .add) := by decide

/-- Merging into nothing hands over the second object. -/
theorem merge_null (s : Perms) : merge none s = ⟨s, false⟩ := rfl

/-- Full statement: after merging, an owner or group set in the second object is that of the result,
and one set only in the first stays.  Proved only when the second sets neither; missing, because it
is false: `merge_owner_fails`. -/
theorem merge_owner_partial (d s : Perms) (hu : s.user = none) (hg : s.group = none) :
    (merge (some d) s).dest.user = d.user ∧ (merge (some d) s).dest.group = d.group ∧
      (merge (some d) s).dest.uid = d.uid ∧ (merge (some d) s).dest.gid = d.gid := by
  unfold merge
  rw [hu, hg]
  exact ⟨rfl, rfl, rfl, rfl⟩

/-- The full statement of `merge_owner_partial` is false: merging an object that sets an owner into
one that does not loses the owner (applying the result does not change the owner of a file); and
into one that does, the result reports the old name while applying it gives the file to the new
owner. -/
theorem merge_owner_fails :
    ∃ (d d' s : Perms), s.user = some [98] ∧ s.uid = 2 ∧ d.user = none ∧
      (merge (some d) s).dest.user = none ∧
      (setPerms (merge (some d) s).dest ⟨false, 0#32, 9, 9⟩).uid = 9 ∧
      d'.user = some [97] ∧ (merge (some d') s).dest.user = some [97] ∧
      (setPerms (merge (some d') s).dest ⟨false, 0#32, 9, 9⟩).uid = 2 :=
  ⟨create, { create with user := some [97], uid := 1 }, { create with user := some [98], uid := 2 },
    by decide⟩

/-- The second object is documented to be destroyed by the merge; it is not, unless it was handed
over: the caller, who may no longer use it, leaks it. -/
theorem merge_leak_fails (d s : Perms) : (merge (some d) s).srcLeft = true := rfl

end Verif.FsPerms
