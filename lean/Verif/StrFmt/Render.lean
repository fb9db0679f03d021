import Verif.StrFmt.Spec
/-! The output of formats. -/
namespace Verif.StrFmt

/-! ### Flags -/

/-- What flags mean to the code. -/
def ctlOf (fl : List Flag) : Ctl where
  pre := decide (.hash ∈ fl)
  ljust := decide (.minus ∈ fl)
  sign := if .plus ∈ fl then .negpos else if .space ∈ fl then .posspace else .neg
  padChar := if zeros fl then 48 else 32

/-- A state of the loop over flags: some of them are read. -/
def Mid (fs0 : List Flag) (rest p : List UInt8) (c : Ctl) : Prop := ∃ d fs1, fs0 = d ++ fs1 ∧ p = fs1.map Flag.chr ++ rest ∧ c = ctlOf d

def NoFlag (rest : List UInt8) : Prop := ∀ f : Flag, rest.head? ≠ some f.chr

theorem chr_inj : ∀ f g : Flag, f.chr = g.chr → f = g := by
  intro f g; cases f <;> cases g <;> decide

theorem check_mid {fs0 : List Flag} {rest p : List UInt8} {c : Ctl} (hr : NoFlag rest) (f : Flag) (h : Mid fs0 rest p c) :
    ((checkByte p f.chr).2 = true ∧ p = f.chr :: (checkByte p f.chr).1 ∧ ∃ d fs1, fs0 = d ++ f :: fs1 ∧ (checkByte p f.chr).1 = fs1.map Flag.chr ++ rest ∧ c = ctlOf d) ∨
    ((checkByte p f.chr) = (p, false) ∧ p.head? ≠ some f.chr) := by
  obtain ⟨d, fs1, e, hp, hc⟩ := h
  cases fs1 with
  | nil =>
    right
    simp only [List.map_nil, List.nil_append] at hp
    subst hp
    have := hr f
    cases p with
    | nil => exact ⟨rfl, by simp⟩
    | cons b p =>
      have hb : b ≠ f.chr := by simpa using this
      exact ⟨by simp [checkByte, hb], by simpa using hb⟩
  | cons g fs1 =>
    subst hp
    by_cases hg : g = f
    · subst hg
      left
      refine ⟨by simp [checkByte], by simp [checkByte], d, fs1, e, by simp [checkByte], hc⟩
    · right
      have hb : g.chr ≠ f.chr := fun h => hg (chr_inj _ _ h)
      exact ⟨by simp [checkByte, hb], by simpa using hb⟩

/-- One check of the loop. -/
def stepF (f : Flag) (up : Ctl → Ctl) (x : List UInt8 × Ctl) : List UInt8 × Ctl :=
  ((checkByte x.1 f.chr).1, if (checkByte x.1 f.chr).2 then up x.2 else x.2)

theorem step_mid {fs0 : List Flag} {rest : List UInt8} {x : List UInt8 × Ctl} (hr : NoFlag rest) (f : Flag) (up : Ctl → Ctl)
    (hup : ∀ d, up (ctlOf d) = ctlOf (d ++ [f])) (h : Mid fs0 rest x.1 x.2) :
    Mid fs0 rest (stepF f up x).1 (stepF f up x).2 ∧ (stepF f up x).1.length ≤ x.1.length ∧
      (x.1.head? = some f.chr → (stepF f up x).1.length < x.1.length) ∧ (x.1.head? ≠ some f.chr → (stepF f up x).1 = x.1) := by
  rcases check_mid hr f h with ⟨h1, h2, d, fs1, e, hp, hc⟩ | ⟨h1, h2⟩
  · have hlen : (checkByte x.1 f.chr).1.length < x.1.length := by
      have := congrArg List.length h2
      simp only [List.length_cons] at this
      omega
    refine ⟨⟨d ++ [f], fs1, by rw [e]; simp, hp, ?_⟩, Nat.le_of_lt hlen, fun _ => hlen, fun hx => absurd (by rw [h2]; rfl) hx⟩
    simp only [stepF, h1, if_true]
    rw [hc, hup]
  · unfold stepF
    rw [h1]
    exact ⟨h, Nat.le_refl _, fun hx => absurd hx h2, fun _ => rfl⟩

def up1 (c : Ctl) : Ctl := { c with padChar := 32, ljust := true }
def up2 (c : Ctl) : Ctl := { c with sign := .negpos }
def up3 (c : Ctl) : Ctl := if c.sign ≠ .negpos then { c with sign := .posspace } else c
def up4 (c : Ctl) : Ctl := { c with pre := true }
def up5 (c : Ctl) : Ctl := if c.ljust = false then { c with padChar := 48 } else c

def iter (x : List UInt8 × Ctl) : List UInt8 × Ctl :=
  stepF .zero up5 (stepF .hash up4 (stepF .space up3 (stepF .plus up2 (stepF .minus up1 x))))

theorem flagLoop_iter (f : Nat) (b : UInt8) (p : List UInt8) (c : Ctl) (hb : b = 45 ∨ b = 43 ∨ b = 35 ∨ b = 48 ∨ b = 32) :
    flagLoop (f + 1) (b :: p) c = flagLoop f (iter (b :: p, c)).1 (iter (b :: p, c)).2 := by
  obtain ⟨p1, r1, h1⟩ : ∃ p1 r1, checkByte (b :: p) 45 = (p1, r1) := ⟨_, _, rfl⟩
  obtain ⟨p2, r2, h2⟩ : ∃ p2 r2, checkByte p1 43 = (p2, r2) := ⟨_, _, rfl⟩
  obtain ⟨p3, r3, h3⟩ : ∃ p3 r3, checkByte p2 32 = (p3, r3) := ⟨_, _, rfl⟩
  obtain ⟨p4, r4, h4⟩ : ∃ p4 r4, checkByte p3 35 = (p4, r4) := ⟨_, _, rfl⟩
  obtain ⟨p5, r5, h5⟩ : ∃ p5 r5, checkByte p4 48 = (p5, r5) := ⟨_, _, rfl⟩
  rw [flagLoop, if_pos hb]
  simp only [h1, h2, h3, h4, h5, iter, stepF, Flag.chr]
  congr 1
  cases r1 <;> cases r2 <;> cases r3 <;> cases r4 <;> cases r5 <;> simp [up1, up2, up3, up4, up5]

theorem up_ctl : (∀ d, up1 (ctlOf d) = ctlOf (d ++ [.minus])) ∧ (∀ d, up2 (ctlOf d) = ctlOf (d ++ [.plus])) ∧ (∀ d, up3 (ctlOf d) = ctlOf (d ++ [.space])) ∧
    (∀ d, up4 (ctlOf d) = ctlOf (d ++ [.hash])) ∧ (∀ d, up5 (ctlOf d) = ctlOf (d ++ [.zero])) := by
  refine ⟨fun d => ?_, fun d => ?_, fun d => ?_, fun d => ?_, fun d => ?_⟩
  · simp [up1, ctlOf, zeros]
  · simp [up2, ctlOf, zeros]
  · by_cases h : Flag.plus ∈ d <;> by_cases h2 : Flag.space ∈ d <;> simp [up3, ctlOf, zeros, h, h2]
  · simp [up4, ctlOf, zeros]
  · by_cases h : Flag.minus ∈ d <;> simp [up5, ctlOf, zeros, h]

theorem flagLoop_mid {fs0 : List Flag} {rest : List UInt8} (hr : NoFlag rest) : ∀ f p c, Mid fs0 rest p c → p.length < f → flagLoop f p c = some (rest, ctlOf fs0) := by
  intro f
  induction f with
  | zero => intro p c _ h; omega
  | succ f ih =>
    intro p c h hl
    obtain ⟨u1, u2, u3, u4, u5⟩ := up_ctl
    have h' := h
    obtain ⟨d, fs1, e, hp, hc⟩ := h'
    cases fs1 with
    | nil =>
      simp only [List.map_nil, List.nil_append] at hp
      rw [List.append_nil] at e
      subst hp; subst e; subst hc
      cases p with
      | nil => rfl
      | cons b p =>
        have hb : ¬ (b = 45 ∨ b = 43 ∨ b = 35 ∨ b = 48 ∨ b = 32) := by
          have h1 := hr .minus; have h2 := hr .plus; have h3 := hr .hash; have h4 := hr .zero; have h5 := hr .space
          simp only [List.head?_cons, ne_eq, Option.some.injEq, Flag.chr] at h1 h2 h3 h4 h5
          simp [h1, h2, h3, h4, h5]
        rw [flagLoop, if_neg hb]
    | cons g fs1 =>
      have hb : g.chr = 45 ∨ g.chr = 43 ∨ g.chr = 35 ∨ g.chr = 48 ∨ g.chr = 32 := by cases g <;> decide
      obtain ⟨q, hq⟩ : ∃ q, p = g.chr :: q := ⟨_, hp⟩
      rw [hq, flagLoop_iter f _ _ _ hb, ← hq]
      obtain ⟨m1, l1, p1, n1⟩ := step_mid (x := (p, c)) hr .minus up1 u1 h
      obtain ⟨m2, l2, p2, n2⟩ := step_mid hr .plus up2 u2 m1
      obtain ⟨m3, l3, p3, n3⟩ := step_mid hr .space up3 u3 m2
      obtain ⟨m4, l4, p4, n4⟩ := step_mid hr .hash up4 u4 m3
      obtain ⟨m5, l5, p5, n5⟩ := step_mid hr .zero up5 u5 m4
      refine ih _ _ m5 ?_
      suffices (iter (p, c)).1.length < p.length by omega
      unfold iter
      dsimp only at l1 p1 n1
      have hh : p.head? = some g.chr := by rw [hq]; rfl
      cases g with
      | minus => have := p1 hh; omega
      | plus =>
        have e1 := n1 (by rw [hh]; decide)
        have := p2 (by rw [e1]; exact hh)
        omega
      | space =>
        have e1 := n1 (by rw [hh]; decide)
        have e2 := n2 (by rw [e1, hh]; decide)
        have := p3 (by rw [e2, e1]; exact hh)
        omega
      | hash =>
        have e1 := n1 (by rw [hh]; decide)
        have e2 := n2 (by rw [e1, hh]; decide)
        have e3 := n3 (by rw [e2, e1, hh]; decide)
        have := p4 (by rw [e3, e2, e1]; exact hh)
        omega
      | zero =>
        have e1 := n1 (by rw [hh]; decide)
        have e2 := n2 (by rw [e1, hh]; decide)
        have e3 := n3 (by rw [e2, e1, hh]; decide)
        have e4 := n4 (by rw [e3, e2, e1, hh]; decide)
        have := p5 (by rw [e4, e3, e2, e1]; exact hh)
        omega

theorem flagLoop_flags (fs : List Flag) {rest : List UInt8} (hr : NoFlag rest) (f : Nat) (hf : (fs.map Flag.chr ++ rest).length < f) :
    flagLoop f (fs.map Flag.chr ++ rest) {} = some (rest, ctlOf fs) :=
  flagLoop_mid hr f _ _ ⟨[], fs, rfl, rfl, rfl⟩ hf

/-! ### Width, precision and size -/

theorem digit_byte (d : Fin 10) : (48 : UInt8) ≤ (48 + d.val).toUInt8 ∧ (48 + d.val).toUInt8 ≤ 57 ∧ (48 + d.val).toUInt8 ≠ 46 ∧ ((48 + d.val).toUInt8 - 48).toNat = d.val := by
  revert d; decide

theorem ctl_pad (s : Sink) (start : Nat) (rest : List UInt8) (ap : List Arg) : ∀ (ds : List (Fin 10)) (c : Ctl), c.haveLen = false → c.padLen < 2 ^ 64 →
    ctlLoop s start (ds.map (fun d => (48 + d.val).toUInt8) ++ rest) c ap =
      ctlLoop s start rest { c with padLen := ds.foldl (fun n d => n * 10 + d.val) c.padLen % 2 ^ 64 } ap := by
  intro ds
  induction ds with
  | nil => intro c hc hp; simp [Nat.mod_eq_of_lt hp]
  | cons d ds ih =>
    intro c hc hp
    obtain ⟨h1, h2, h3, h4⟩ := digit_byte d
    rw [List.map_cons, List.cons_append, ctlLoop.eq_def]
    dsimp only
    rw [if_neg h3, if_pos ⟨h1, h2⟩, if_neg (by rw [hc]; decide), h4,
      ih { c with padLen := (c.padLen * 10 + d.val) % 2 ^ 64 } hc (Nat.mod_lt _ (by decide))]
    have : ∀ (l : List (Fin 10)) a b, a % 2 ^ 64 = b % 2 ^ 64 → l.foldl (fun n d => n * 10 + d.val) a % 2 ^ 64 = l.foldl (fun n d => n * 10 + d.val) b % 2 ^ 64 := by
      intro l
      induction l with
      | nil => intro a b h; exact h
      | cons x l ih => intro a b h; exact ih _ _ (by dsimp only; omega)
    dsimp only
    rw [this ds _ (c.padLen * 10 + d.val) (Nat.mod_mod _ _)]
    rfl

theorem ctl_in (s : Sink) (start : Nat) (rest : List UInt8) (ap : List Arg) : ∀ (ds : List (Fin 10)) (c : Ctl), c.haveLen = true → c.inputLen < 2 ^ 64 →
    ctlLoop s start (ds.map (fun d => (48 + d.val).toUInt8) ++ rest) c ap =
      ctlLoop s start rest { c with inputLen := ds.foldl (fun n d => n * 10 + d.val) c.inputLen % 2 ^ 64 } ap := by
  intro ds
  induction ds with
  | nil => intro c hc hp; simp [Nat.mod_eq_of_lt hp]
  | cons d ds ih =>
    intro c hc hp
    obtain ⟨h1, h2, h3, h4⟩ := digit_byte d
    rw [List.map_cons, List.cons_append, ctlLoop.eq_def]
    dsimp only
    rw [if_neg h3, if_pos ⟨h1, h2⟩, if_pos hc, h4,
      ih { c with inputLen := (c.inputLen * 10 + d.val) % 2 ^ 64 } hc (Nat.mod_lt _ (by decide))]
    have : ∀ (l : List (Fin 10)) a b, a % 2 ^ 64 = b % 2 ^ 64 → l.foldl (fun n d => n * 10 + d.val) a % 2 ^ 64 = l.foldl (fun n d => n * 10 + d.val) b % 2 ^ 64 := by
      intro l
      induction l with
      | nil => intro a b h; exact h
      | cons x l ih => intro a b h; exact ih _ _ (by dsimp only; omega)
    dsimp only
    rw [this ds _ (c.inputLen * 10 + d.val) (Nat.mod_mod _ _)]
    rfl

theorem ctl_width (s : Sink) (start : Nat) (rest : List UInt8) {w : Option Num} {c : Ctl} {ap ap' : List Arg} {n : Nat} (hc : c.haveLen = false) (hp : c.padLen = 0)
    (hw : ∀ ds, w = some (.lit ds) → Num.val ds < 2 ^ 64) (h : getWidth w ap = some (n, ap')) :
    ctlLoop s start (widthText w ++ rest) c ap = ctlLoop s start rest { c with padLen := n } ap' := by
  cases w with
  | none =>
    simp only [getWidth, Option.some.injEq, Prod.mk.injEq] at h
    obtain ⟨rfl, rfl⟩ := h
    simp only [widthText, List.nil_append]
    congr 1
    cases c; simp at hp; rw [hp]
  | some x =>
    cases x with
    | lit ds =>
      simp only [getWidth, Num.get, Option.some.injEq, Prod.mk.injEq] at h
      obtain ⟨rfl, rfl⟩ := h
      simp only [widthText, Num.text]
      rw [ctl_pad s start rest ap ds c hc (by rw [hp]; decide), hp]
      rw [show ds.foldl (fun n d => n * 10 + d.val) 0 = Num.val ds from rfl, Nat.mod_eq_of_lt (hw ds rfl)]
    | star =>
      cases ap with
      | nil => simp [getWidth, Num.get] at h
      | cons a ap =>
        cases a with
        | i v =>
          simp only [getWidth, Num.get, Option.some.injEq, Prod.mk.injEq] at h
          obtain ⟨rfl, rfl⟩ := h
          simp only [widthText, Num.text, List.cons_append, List.nil_append]
          rw [ctlLoop.eq_def]
          dsimp only
          rw [if_neg (by decide), if_neg (by decide), if_pos rfl]
          by_cases hv : v.toInt > 0
          · rw [if_pos hv, if_neg (by rw [hc]; decide)]
          · rw [if_neg hv, show v.toInt.toNat = 0 by omega, ← hp]
        | l v => simp [getWidth, Num.get] at h
        | s v => simp [getWidth, Num.get] at h
        | d v => simp [getWidth, Num.get] at h

theorem ctl_prec (s : Sink) (start : Nat) (rest : List UInt8) {w : Option Num} {c : Ctl} {ap ap' : List Arg} {n : Option Nat} (hc : c.haveLen = false) (hp : c.inputLen = 0)
    (hw : ∀ ds, w = some (.lit ds) → Num.val ds < 2 ^ 64) (h : getPrec w ap = some (n, ap')) :
    ctlLoop s start (precText w ++ rest) c ap = ctlLoop s start rest { c with haveLen := n.isSome, inputLen := n.getD 0 } ap' := by
  cases w with
  | none =>
    simp only [getPrec, Option.some.injEq, Prod.mk.injEq] at h
    obtain ⟨rfl, rfl⟩ := h
    simp only [precText, List.nil_append]
    congr 1
    cases c; simp at hp hc; simp [hp, hc]
  | some x =>
    simp only [precText, List.cons_append]
    rw [ctlLoop.eq_def]
    dsimp only
    rw [if_pos rfl, if_neg (by rw [hc]; decide)]
    cases x with
    | lit ds =>
      simp only [getPrec, Num.get, Option.map_some, Option.some.injEq, Prod.mk.injEq] at h
      obtain ⟨rfl, rfl⟩ := h
      simp only [Num.text]
      rw [ctl_in s start rest ap ds { c with haveLen := true } rfl (by show c.inputLen < _; rw [hp]; decide)]
      dsimp only
      rw [hp, show ds.foldl (fun n d => n * 10 + d.val) 0 = Num.val ds from rfl, Nat.mod_eq_of_lt (hw ds rfl)]
      rfl
    | star =>
      cases ap with
      | nil => simp [getPrec, Num.get] at h
      | cons a ap =>
        cases a with
        | i v =>
          simp only [getPrec, Num.get, Option.map_some, Option.some.injEq, Prod.mk.injEq] at h
          obtain ⟨rfl, rfl⟩ := h
          simp only [Num.text, List.cons_append, List.nil_append]
          rw [ctlLoop.eq_def]
          dsimp only
          rw [if_neg (by decide), if_neg (by decide), if_pos rfl]
          by_cases hv : v.toInt > 0
          · rw [if_pos hv, if_pos rfl]; rfl
          · rw [if_neg hv]
            simp only [Option.isSome_some, Option.getD_some, show v.toInt.toNat = 0 by omega, ← hp]
        | l v => simp [getPrec, Num.get] at h
        | s v => simp [getPrec, Num.get] at h
        | d v => simp [getPrec, Num.get] at h

/-- The data type of a size. -/
def Size.dt : Size → DT
  | .none | .I32 => .int | .hh => .char | .h => .short | .l => .long | .ll | .I64 => .longlong | .z => .sizet

theorem ctl_size (s : Sink) (start : Nat) (rest : List UInt8) (z : Size) (c : Ctl) (ap : List Arg) (hc : c.dt = .int) :
    ctlLoop s start (z.text ++ rest) c ap = ctlLoop s start rest { c with dt := z.dt } ap := by
  have e : c = { c with dt := .int } := by cases c; simp at hc; simp [hc]
  cases z
  · simp only [Size.text, List.nil_append, Size.dt]; rw [← e]
  · simp only [Size.text, List.cons_append, List.nil_append, Size.dt]
    rw [ctlLoop.eq_def]
    dsimp only
    rw [if_neg (by decide), if_neg (by decide), if_neg (by decide), if_pos rfl, if_pos hc, ctlLoop.eq_def]
    dsimp only
    rw [if_neg (by decide), if_neg (by decide), if_neg (by decide), if_pos rfl, if_neg (by simp), if_pos rfl]
  · simp only [Size.text, List.cons_append, List.nil_append, Size.dt]
    rw [ctlLoop.eq_def]
    dsimp only
    rw [if_neg (by decide), if_neg (by decide), if_neg (by decide), if_pos rfl, if_pos hc]
  · simp only [Size.text, List.cons_append, List.nil_append, Size.dt]
    rw [ctlLoop.eq_def]
    dsimp only
    rw [if_neg (by decide), if_neg (by decide), if_neg (by decide), if_neg (by decide), if_pos rfl, if_pos hc]
  · simp only [Size.text, List.cons_append, List.nil_append, Size.dt]
    rw [ctlLoop.eq_def]
    dsimp only
    rw [if_neg (by decide), if_neg (by decide), if_neg (by decide), if_neg (by decide), if_pos rfl, if_pos hc, ctlLoop.eq_def]
    dsimp only
    rw [if_neg (by decide), if_neg (by decide), if_neg (by decide), if_neg (by decide), if_pos rfl, if_neg (by simp), if_pos rfl]
  · simp only [Size.text, List.cons_append, List.nil_append, Size.dt]
    rw [ctlLoop.eq_def]
    dsimp only
    rw [if_neg (by decide), if_neg (by decide), if_neg (by decide), if_neg (by decide), if_neg (by decide), if_neg (by decide), if_pos rfl,
      if_neg (by simp [hc])]
  · simp only [Size.text, List.cons_append, List.nil_append, Size.dt]
    rw [ctlLoop.eq_def]
    dsimp only
    rw [if_neg (by decide), if_neg (by decide), if_neg (by decide), if_neg (by decide), if_neg (by decide), if_pos rfl,
      if_neg (by simp [hc]), if_pos (by simp), if_neg (by simp), if_pos (by simp)]
    simp only [List.drop_succ_cons, List.drop_zero]
    rw [← e]
  · simp only [Size.text, List.cons_append, List.nil_append, Size.dt]
    rw [ctlLoop.eq_def]
    dsimp only
    rw [if_neg (by decide), if_neg (by decide), if_neg (by decide), if_neg (by decide), if_neg (by decide), if_pos rfl,
      if_neg (by simp [hc]), if_pos (by simp), if_pos (by simp)]
    simp only [List.drop_succ_cons, List.drop_zero]

/-! ### Conversions -/

theorem getSigned_eq {z : Size} {a : Arg} {v : Int} (ap : List Arg) (h : signedArg z a = some v) : getSigned z.dt (a :: ap) = some (v, ap) ∧ v.natAbs < 2 ^ 64 := by
  cases a with
  | i x =>
    have hx := x.isLt
    have b1 := BitVec.two_mul_toInt_lt (x := x)
    have b2 := BitVec.le_two_mul_toInt (x := x)
    cases z <;> simp only [signedArg, Option.some.injEq, reduceCtorEq] at h <;> subst h
    · exact ⟨rfl, by omega⟩
    · have b1 := BitVec.two_mul_toInt_lt (x := x.truncate 8)
      have b2 := BitVec.le_two_mul_toInt (x := x.truncate 8)
      have e : (x.truncate 8).toInt = Int.bmod x.toNat (2 ^ 8) := BitVec.toInt_setWidth x
      exact ⟨by rw [← e]; rfl, by rw [← e]; omega⟩
    · have b1 := BitVec.two_mul_toInt_lt (x := x.truncate 16)
      have b2 := BitVec.le_two_mul_toInt (x := x.truncate 16)
      have e : (x.truncate 16).toInt = Int.bmod x.toNat (2 ^ 16) := BitVec.toInt_setWidth x
      exact ⟨by rw [← e]; rfl, by rw [← e]; omega⟩
    · exact ⟨rfl, by omega⟩
  | l x =>
    have b1 := BitVec.two_mul_toInt_lt (x := x)
    have b2 := BitVec.le_two_mul_toInt (x := x)
    cases z <;> simp only [signedArg, Option.some.injEq, reduceCtorEq] at h <;> subst h <;> exact ⟨rfl, by omega⟩
  | s m => simp [signedArg] at h
  | d m => simp [signedArg] at h

theorem getUnsigned_eq {z : Size} {a : Arg} {v : Nat} (ap : List Arg) (h : unsignedArg z a = some v) : getUnsigned z.dt (a :: ap) = some (v, ap) ∧ v < 2 ^ 64 := by
  cases a with
  | i x =>
    have hx := x.isLt
    cases z <;> simp only [unsignedArg, Option.some.injEq, reduceCtorEq] at h <;> subst h
    · exact ⟨rfl, by omega⟩
    · exact ⟨by rw [← BitVec.toNat_setWidth]; rfl, by omega⟩
    · exact ⟨by rw [← BitVec.toNat_setWidth]; rfl, by omega⟩
    · exact ⟨rfl, by omega⟩
  | l x =>
    have hx := x.isLt
    cases z <;> simp only [unsignedArg, Option.some.injEq, reduceCtorEq] at h <;> subst h <;> exact ⟨rfl, by omega⟩
  | s m => simp [unsignedArg] at h
  | d m => simp [unsignedArg] at h

theorem intText_numField (fl : List Flag) (w : Nat) (pre digits : List UInt8) :
    intText pre digits (ctlOf fl).padChar w (ctlOf fl).ljust = numField (decide (.minus ∈ fl)) (zeros fl) w pre digits := by
  unfold intText numField
  simp only [ctlOf]
  by_cases hz : zeros fl = true
  · have hm : Flag.minus ∉ fl := by simp only [zeros, decide_eq_true_eq] at hz; exact hz.2
    simp [field, hz, hm]
  · simp [hz]

theorem signText_sign (fl : List Flag) (pos : Bool) : signText pos (ctlOf fl).sign = sign fl (!pos) := by
  unfold signText sign
  cases pos
  · simp
  · by_cases h : Flag.plus ∈ fl <;> by_cases h2 : Flag.space ∈ fl <;> simp [ctlOf, h, h2]

theorem numeral_head (n : Nat) (h : 0 < n) : (numeral 8 u n).head? ≠ some 48 := by
  induction n using Nat.strongRecOn with
  | _ n ih =>
    rw [numeral]
    split
    · rename_i hb
      have := ih (n / 8) (by omega) (by omega)
      have hp := numeral_pos 8 u (n / 8)
      cases hq : numeral 8 u (n / 8) with
      | nil => simp [hq] at hp
      | cons x l => rw [hq] at this; simpa using this
    · have : n < 8 := by omega
      have : ∀ u : Bool, ∀ n : Fin 8, 0 < n.1 → ([digit u n.1] : List UInt8).head? ≠ some 48 := by decide
      exact this u ⟨n, by omega⟩ h

theorem numeral8_upper (n : Nat) : numeral 8 true n = numeral 8 false n := by
  induction n using Nat.strongRecOn with
  | _ n ih =>
    rw [numeral.eq_def 8 true n, numeral.eq_def 8 false n]
    have hd : ∀ d, d < 8 → digit true d = digit false d := fun d h => by simp [digit, show d < 10 by omega]
    split
    · rw [ih (n / 8) (by omega), hd _ (Nat.mod_lt _ (by omega))]
    · rw [hd _ (by omega)]

theorem prefix8 (u : Bool) (n : Nat) : prefixText 8 u (numeral 8 u n) = if n ≠ 0 then [48] else [] := by
  unfold prefixText
  by_cases h : n = 0
  · subst h
    have : (numeral 8 u 0).head? = some 48 := by rw [numeral]; cases u <;> decide
    simp [this]
  · simp [numeral_head n (Nat.pos_of_ne_zero h), h]

theorem take_idxOf (m : List UInt8) : m.take (m.idxOf 0) = m.takeWhile (· ≠ 0) := by
  induction m with
  | nil => rfl
  | cons x m ih =>
    by_cases h : x = 0
    · subst h; simp
    · rw [List.idxOf_cons, List.takeWhile_cons]
      have hx : (x == 0) = false := by simpa using h
      rw [hx]
      simp only [ne_eq, h, not_false_eq_true, decide_true, if_true, cond_false, List.take_succ_cons]
      rw [ih]

theorem takeWhile_full (m : List UInt8) (h : 0 ∉ m) : m.takeWhile (· ≠ 0) = m := by
  induction m with
  | nil => rfl
  | cons x m ih =>
    simp only [List.mem_cons, not_or] at h
    rw [List.takeWhile_cons, ih h.2]
    have : x ≠ 0 := fun e => h.1 e.symm
    simp [this]

theorem strText_eq {prec : Option Nat} {m t : List UInt8} (hp : ∀ k, prec = some k → k < 2 ^ 64 - 1) (h : strText prec (some m) = some t) :
    ∃ n, (if prec.isSome then strLenMax m (prec.getD 0) else strLen m) = some n ∧ m.take n = t := by
  cases prec with
  | none =>
    simp only [strText] at h
    split at h
    · rename_i h0
      simp only [Option.some.injEq] at h
      exact ⟨m.idxOf 0, by simp [strLen, h0], by rw [take_idxOf, h]⟩
    · simp at h
  | some k =>
    have hk := hp k rfl
    simp only [strText] at h
    split at h
    · rename_i h0
      simp only [Option.some.injEq] at h
      simp only [Option.isSome_some, if_true, Option.getD_some, strLenMax]
      by_cases k0 : k = 0
      · subst k0; exact ⟨0, by simp, by simpa using h⟩
      · rw [if_neg k0, if_neg (by omega)]
        by_cases h1 : 0 ∈ m.take k
        · rw [if_pos h1]
          refine ⟨_, rfl, ?_⟩
          rw [← h, ← take_idxOf (m.take k), List.take_take]
          have : (m.take k).idxOf 0 < (m.take k).length := List.idxOf_lt_length_of_mem h1
          rw [List.length_take] at this
          rw [Nat.min_eq_left (by omega)]
        · rw [if_neg h1]
          have hkl : k ≤ m.length := by
            rcases h0 with h0 | h0
            · apply Classical.byContradiction
              intro hn
              rw [List.take_of_length_le (by omega)] at h1
              exact h1 h0
            · exact h0
          rw [if_pos hkl]
          exact ⟨k, rfl, by rw [← h, takeWhile_full _ h1]⟩
    · simp at h

theorem byte_trunc (v : BitVec 32) : UInt8.ofBitVec (v.truncate 8) = (v.toNat % 256).toUInt8 := by
  apply UInt8.toNat_inj.mp
  have e1 : (UInt8.ofBitVec (v.truncate 8)).toNat = (v.truncate 8).toNat := rfl
  have e2 : ((v.toNat % 256).toUInt8).toNat = v.toNat % 256 % 256 := UInt8.toNat_ofNat'
  have e3 : (v.truncate 8).toNat = v.toNat % 2 ^ 8 := BitVec.toNat_setWidth _ _
  rw [e1, e2, e3]; omega

theorem getUnsigned_voidp (a : Arg) (ap : List Arg) : getUnsigned .voidp (a :: ap) = getUnsigned Size.l.dt (a :: ap) := by
  cases a <;> rfl

/-- The state of a directive when its conversion is reached. -/
def ctlAt (fl : List Flag) (w : Nat) (prec : Option Nat) (z : Size) : Ctl :=
  { ctlOf fl with padLen := w, haveLen := prec.isSome, inputLen := prec.getD 0, dt := z.dt }

theorem done_mbuf (start : Nat) (p : List UInt8) (ap : List Arg) (s : Sink) (n : Nat) : done start p ap (s, (n : Int)) = some (s, p, ap, (n : Int)) := by
  unfold done
  rw [if_neg (by show ¬ (n : Int) = -2; omega)]

theorem ctl_conv (x : List UInt8) (start : Nat) (rest : List UInt8) {cv : Conv} {fl : List Flag} {w : Nat} {prec : Option Nat} {z : Size} {a : Arg} {ap : List Arg} {t : List UInt8}
    (hp : ∀ k, prec = some k → k < 2 ^ 64 - 1) (hok : ArgsOk (a :: ap)) (h : cv.render fl w prec z a = some t) :
    ctlLoop (.mbuf (some x)) start (cv.chr :: rest) (ctlAt fl w prec z) (a :: ap) = some (.mbuf (some (x ++ t)), rest, ap, (t.length : Int)) := by
  have hint : ∀ (n base : Nat) (pos : Bool) (st : Sign) (pre upper : Bool), 8 ≤ base → base ≤ 16 → n < 2 ^ 64 → (pre = true → signText pos st = []) →
      (addIntegerJust (.mbuf (some x)) n base pos st pre upper (ctlOf fl).padChar w (ctlOf fl).ljust).bind (done start rest ap) =
        (let t := numField (decide (.minus ∈ fl)) (zeros fl) w (signText pos st ++ if pre then prefixText base upper (numeral base upper n) else []) (numeral base upper n)
         some (.mbuf (some (x ++ t)), rest, ap, (t.length : Int))) := by
    intro n base pos st pre upper h8 h16 hn hs
    rw [addIntegerJust_mbuf x n base pos st pre upper _ w _ h8 h16 hn hs]
    simp only [Option.bind_some, intText_numField]
    exact done_mbuf ..
  have unsig : ∀ {z : Size} {f : Nat → List UInt8}, (unsignedArg z a).map f = some t → ∃ v, getUnsigned z.dt (a :: ap) = some (v, ap) ∧ v < 2 ^ 64 ∧ f v = t := by
    intro z f h
    rw [Option.map_eq_some_iff] at h
    obtain ⟨v, hv, e⟩ := h
    obtain ⟨g1, g2⟩ := getUnsigned_eq ap hv
    exact ⟨v, g1, g2, e⟩
  have sig : ∀ {f : Int → List UInt8}, (signedArg z a).map f = some t → ∃ v, getSigned z.dt (a :: ap) = some (v, ap) ∧ v.natAbs < 2 ^ 64 ∧ f v = t := by
    intro f h
    rw [Option.map_eq_some_iff] at h
    obtain ⟨v, hv, e⟩ := h
    obtain ⟨g1, g2⟩ := getSigned_eq ap hv
    exact ⟨v, g1, g2, e⟩
  have hsn : signText true .neg = [] := rfl
  have dbl : ∀ y, a = .d y → numField (decide (.minus ∈ fl)) (zeros fl) w (sign fl (!y.pos)) (y.text (min (prec.getD 6) 100)) = t →
      (addDoubleJust (.mbuf (some x)) y (ctlOf fl).sign (if prec.isSome then prec.getD 0 else 6) (ctlOf fl).padChar w (ctlOf fl).ljust).bind (done start rest ap) =
        some (.mbuf (some (x ++ t)), rest, ap, (t.length : Int)) := by
    intro y hy ht
    have e : (if prec.isSome then prec.getD 0 else 6) = prec.getD 6 := by cases prec <;> rfl
    rw [e, addDoubleJust_mbuf x y _ _ _ _ _ (hok y (by rw [hy]; simp)), Option.bind_some]
    simp only [intText_numField, signText_sign, ht]
    exact done_mbuf ..
  unfold Conv.render at h
  unfold ctlLoop
  have hlen : (ctlAt fl w prec z).haveLen = prec.isSome := rfl
  cases cv with
  | d =>
    obtain ⟨v, g1, g2, e⟩ := sig h
    subst e
    rw [if_neg (by decide), if_neg (by decide), if_neg (by decide), if_neg (by decide), if_neg (by decide), if_neg (by decide), if_neg (by decide), if_pos (by decide)]
    simp only [ctlAt]
    rw [g1, Option.bind_some, hint v.natAbs 10 _ _ _ _ (by omega) (by omega) g2 (by simp)]
    simp only [signText_sign, Bool.false_eq_true, if_false, List.append_nil, decide_not, Bool.not_not]
  | i =>
    obtain ⟨v, g1, g2, e⟩ := sig h
    subst e
    rw [if_neg (by decide), if_neg (by decide), if_neg (by decide), if_neg (by decide), if_neg (by decide), if_neg (by decide), if_neg (by decide), if_pos (by decide)]
    simp only [ctlAt]
    rw [g1, Option.bind_some, hint v.natAbs 10 _ _ _ _ (by omega) (by omega) g2 (by simp)]
    simp only [signText_sign, Bool.false_eq_true, if_false, List.append_nil, decide_not, Bool.not_not]
  | u =>
    obtain ⟨v, g1, g2, e⟩ := unsig h
    subst e
    rw [if_neg (by decide), if_neg (by decide), if_neg (by decide), if_neg (by decide), if_neg (by decide), if_neg (by decide), if_neg (by decide), if_neg (by decide), if_neg (by decide), if_pos (by decide)]
    simp only [ctlAt]
    rw [g1, Option.bind_some, hint v 10 _ _ _ _ (by omega) (by omega) g2 (by simp)]
    simp only [hsn, Bool.false_eq_true, if_false, List.append_nil]
  | o =>
    obtain ⟨v, g1, g2, e⟩ := unsig h
    subst e
    rw [if_neg (by decide), if_neg (by decide), if_neg (by decide), if_neg (by decide), if_neg (by decide), if_neg (by decide), if_neg (by decide), if_neg (by decide), if_pos (by decide)]
    simp only [ctlAt]
    rw [g1, Option.bind_some, hint v 8 _ _ _ _ (by omega) (by omega) g2 (by intro; rfl)]
    rw [show decide (Conv.o.chr = 79) = false by decide, prefix8]
    by_cases hh : Flag.hash ∈ fl <;> simp [hsn, hh, ctlOf]
  | O =>
    obtain ⟨v, g1, g2, e⟩ := unsig h
    subst e
    rw [if_neg (by decide), if_neg (by decide), if_neg (by decide), if_neg (by decide), if_neg (by decide), if_neg (by decide), if_neg (by decide), if_neg (by decide), if_pos (by decide)]
    simp only [ctlAt]
    rw [g1, Option.bind_some, hint v 8 _ _ _ _ (by omega) (by omega) g2 (by intro; rfl)]
    rw [show decide (Conv.O.chr = 79) = true by decide, prefix8, numeral8_upper]
    by_cases hh : Flag.hash ∈ fl <;> simp [hsn, hh, ctlOf]
  | x =>
    obtain ⟨v, g1, g2, e⟩ := unsig h
    subst e
    rw [if_neg (by decide), if_neg (by decide), if_neg (by decide), if_neg (by decide), if_neg (by decide), if_neg (by decide), if_neg (by decide), if_neg (by decide), if_neg (by decide), if_neg (by decide), if_pos (by decide)]
    simp only [ctlAt]
    rw [g1, Option.bind_some, hint v 16 _ _ _ _ (by omega) (by omega) g2 (by intro; rfl)]
    rw [show decide (Conv.x.chr = 88) = false by decide]
    by_cases hh : Flag.hash ∈ fl <;> simp [hsn, hh, ctlOf, prefixText]
  | X =>
    obtain ⟨v, g1, g2, e⟩ := unsig h
    subst e
    rw [if_neg (by decide), if_neg (by decide), if_neg (by decide), if_neg (by decide), if_neg (by decide), if_neg (by decide), if_neg (by decide), if_neg (by decide), if_neg (by decide), if_neg (by decide), if_pos (by decide)]
    simp only [ctlAt]
    rw [g1, Option.bind_some, hint v 16 _ _ _ _ (by omega) (by omega) g2 (by intro; rfl)]
    rw [show decide (Conv.X.chr = 88) = true by decide]
    by_cases hh : Flag.hash ∈ fl <;> simp [hsn, hh, ctlOf, prefixText]
  | p =>
    obtain ⟨v, g1, g2, e⟩ := unsig h
    subst e
    rw [if_neg (by decide), if_neg (by decide), if_neg (by decide), if_neg (by decide), if_neg (by decide), if_neg (by decide), if_neg (by decide), if_neg (by decide), if_neg (by decide), if_neg (by decide), if_neg (by decide), if_pos (by decide)]
    rw [← getUnsigned_voidp] at g1
    simp only [ctlAt]
    rw [g1, Option.bind_some, hint v 16 _ _ _ _ (by omega) (by omega) g2 (by intro; rfl)]
    rw [show decide (Conv.p.chr = 80) = false by decide]
    simp [hsn, prefixText]
  | P =>
    obtain ⟨v, g1, g2, e⟩ := unsig h
    subst e
    rw [if_neg (by decide), if_neg (by decide), if_neg (by decide), if_neg (by decide), if_neg (by decide), if_neg (by decide), if_neg (by decide), if_neg (by decide), if_neg (by decide), if_neg (by decide), if_neg (by decide), if_pos (by decide)]
    rw [← getUnsigned_voidp] at g1
    simp only [ctlAt]
    rw [g1, Option.bind_some, hint v 16 _ _ _ _ (by omega) (by omega) g2 (by intro; rfl)]
    rw [show decide (Conv.P.chr = 80) = true by decide]
    simp [hsn, prefixText]
  | e =>
    rw [if_neg (by decide), if_neg (by decide), if_neg (by decide), if_neg (by decide), if_neg (by decide), if_neg (by decide), if_neg (by decide), if_neg (by decide), if_neg (by decide), if_neg (by decide), if_neg (by decide), if_neg (by decide), if_pos (by decide)]
    cases a with
    | d y => exact dbl y rfl (Option.some.inj h)
    | _ => simp at h
  | E =>
    rw [if_neg (by decide), if_neg (by decide), if_neg (by decide), if_neg (by decide), if_neg (by decide), if_neg (by decide), if_neg (by decide), if_neg (by decide), if_neg (by decide), if_neg (by decide), if_neg (by decide), if_neg (by decide), if_pos (by decide)]
    cases a with
    | d y => exact dbl y rfl (Option.some.inj h)
    | _ => simp at h
  | f =>
    rw [if_neg (by decide), if_neg (by decide), if_neg (by decide), if_neg (by decide), if_neg (by decide), if_neg (by decide), if_neg (by decide), if_neg (by decide), if_neg (by decide), if_neg (by decide), if_neg (by decide), if_neg (by decide), if_pos (by decide)]
    cases a with
    | d y => exact dbl y rfl (Option.some.inj h)
    | _ => simp at h
  | F =>
    rw [if_neg (by decide), if_neg (by decide), if_neg (by decide), if_neg (by decide), if_neg (by decide), if_neg (by decide), if_neg (by decide), if_neg (by decide), if_neg (by decide), if_neg (by decide), if_neg (by decide), if_neg (by decide), if_pos (by decide)]
    cases a with
    | d y => exact dbl y rfl (Option.some.inj h)
    | _ => simp at h
  | g =>
    rw [if_neg (by decide), if_neg (by decide), if_neg (by decide), if_neg (by decide), if_neg (by decide), if_neg (by decide), if_neg (by decide), if_neg (by decide), if_neg (by decide), if_neg (by decide), if_neg (by decide), if_neg (by decide), if_pos (by decide)]
    cases a with
    | d y => exact dbl y rfl (Option.some.inj h)
    | _ => simp at h
  | G =>
    rw [if_neg (by decide), if_neg (by decide), if_neg (by decide), if_neg (by decide), if_neg (by decide), if_neg (by decide), if_neg (by decide), if_neg (by decide), if_neg (by decide), if_neg (by decide), if_neg (by decide), if_neg (by decide), if_pos (by decide)]
    cases a with
    | d y => exact dbl y rfl (Option.some.inj h)
    | _ => simp at h
  | c =>
    rw [if_neg (by decide), if_neg (by decide), if_neg (by decide), if_neg (by decide), if_neg (by decide), if_neg (by decide), if_neg (by decide), if_neg (by decide), if_neg (by decide), if_neg (by decide), if_neg (by decide), if_neg (by decide), if_neg (by decide), if_pos (by decide)]
    cases a with
    | i v =>
      have h := Option.some.inj h
      subst h
      simp only [ctlAt]
      rw [addJust_mbuf, Option.bind_some, done_mbuf]
      rw [byte_trunc]
      simp only [nullText, Option.getD_some, ctlOf]
    | _ => simp at h
  | s =>
    rw [if_neg (by decide), if_neg (by decide), if_neg (by decide), if_neg (by decide), if_neg (by decide), if_neg (by decide), if_neg (by decide), if_neg (by decide), if_neg (by decide), if_neg (by decide), if_neg (by decide), if_neg (by decide), if_neg (by decide), if_neg (by decide), if_pos (by decide)]
    cases a with
    | s m =>
      simp only [Option.map_eq_some_iff] at h
      obtain ⟨t', h1, rfl⟩ := h
      cases m with
      | none =>
        simp only [strText, Option.some.injEq] at h1
        subst h1
        dsimp only
        rw [addJust_mbuf, Option.bind_some, done_mbuf]
        rfl
      | some m =>
        obtain ⟨n, g1, g2⟩ := strText_eq hp h1
        have g1 : (if (ctlAt fl w prec z).haveLen = true then strLenMax m (ctlAt fl w prec z).inputLen else strLen m) = some n := g1
        dsimp only
        rw [g1, Option.bind_some, addJust_mbuf, Option.bind_some, done_mbuf, g2]
        rfl
    | _ => simp at h

/-! ### Directives and formats -/

theorem tail_head (d : Dir) (hw : d.wf) (rest : List UInt8) :
    ∃ b p, widthText d.width ++ (precText d.prec ++ (d.size.text ++ (d.conv.chr :: rest))) = b :: p ∧ b ≠ 37 ∧ ∀ f : Flag, b ≠ f.chr := by
  have h3 : ∃ b p, d.size.text ++ (d.conv.chr :: rest) = b :: p ∧ b ≠ 37 ∧ ∀ f : Flag, b ≠ f.chr := by
    cases d.size
    case none =>
      refine ⟨_, _, rfl, ?_⟩
      cases d.conv <;> exact ⟨by decide, fun f => by cases f <;> decide⟩
    all_goals exact ⟨_, _, rfl, by decide, fun f => by cases f <;> decide⟩
  have h2 : ∃ b p, precText d.prec ++ (d.size.text ++ (d.conv.chr :: rest)) = b :: p ∧ b ≠ 37 ∧ ∀ f : Flag, b ≠ f.chr := by
    cases d.prec with
    | none => exact h3
    | some n => exact ⟨_, _, rfl, by decide, fun f => by cases f <;> decide⟩
  cases hd : d.width with
  | none => exact h2
  | some n =>
    cases n with
    | star => exact ⟨_, _, rfl, by decide, fun f => by cases f <;> decide⟩
    | lit ds =>
      obtain ⟨w1, w2, -⟩ := hw.1 ds hd
      cases ds with
      | nil => exact absurd rfl w1
      | cons x ds =>
        refine ⟨_, _, rfl, ?_⟩
        have hx : x ≠ 0 := by simpa using w2
        have : ∀ x : Fin 10, x ≠ 0 → (48 + x.val).toUInt8 ≠ 37 ∧ ∀ f : Flag, (48 + x.val).toUInt8 ≠ f.chr := by
          intro x hx
          refine ⟨by revert x; decide, fun f => ?_⟩
          cases f <;> (revert x; decide)
        exact this x hx

theorem getWidth_ok {w : Option Num} {ap ap' : List Arg} {n : Nat} (h : getWidth w ap = some (n, ap')) (hok : ArgsOk ap) : ArgsOk ap' := by
  cases w with
  | none => simp only [getWidth, Option.some.injEq, Prod.mk.injEq] at h; rw [← h.2]; exact hok
  | some x =>
    cases x with
    | lit ds => simp only [getWidth, Num.get, Option.some.injEq, Prod.mk.injEq] at h; rw [← h.2]; exact hok
    | star =>
      cases ap with
      | nil => simp [getWidth, Num.get] at h
      | cons a ap =>
        cases a with
        | i v =>
          simp only [getWidth, Num.get, Option.some.injEq, Prod.mk.injEq] at h
          rw [← h.2]
          exact fun y hy => hok y (List.mem_cons_of_mem _ hy)
        | _ => simp [getWidth, Num.get] at h

theorem getPrec_ok {w : Option Num} {ap ap' : List Arg} {n : Option Nat} (h : getPrec w ap = some (n, ap')) (hok : ArgsOk ap) : ArgsOk ap' := by
  cases w with
  | none => simp only [getPrec, Option.some.injEq, Prod.mk.injEq] at h; rw [← h.2]; exact hok
  | some x =>
    cases x with
    | lit ds => simp only [getPrec, Num.get, Option.map_some, Option.some.injEq, Prod.mk.injEq] at h; rw [← h.2]; exact hok
    | star =>
      cases ap with
      | nil => simp [getPrec, Num.get] at h
      | cons a ap =>
        cases a with
        | i v =>
          simp only [getPrec, Num.get, Option.map_some, Option.some.injEq, Prod.mk.injEq] at h
          rw [← h.2]
          exact fun y hy => hok y (List.mem_cons_of_mem _ hy)
        | _ => simp [getPrec, Num.get] at h

theorem handleControl_dir (x : List UInt8) (rest : List UInt8) {d : Dir} {ap ap' : List Arg} {t : List UInt8} (hw : d.wf) (hok : ArgsOk ap) (h : d.render ap = some (t, ap')) :
    handleControl (.mbuf (some x)) (d.text ++ rest) ap = some (.mbuf (some (x ++ t)), rest, ap', (t.length : Int)) ∧ ArgsOk ap' := by
  obtain ⟨b, p, e, hb, hnf⟩ := tail_head d hw rest
  have et : d.text ++ rest = d.flags.map Flag.chr ++ (b :: p) := by
    rw [← e]; simp [Dir.text]
  have hN : NoFlag (b :: p) := by
    intro f; simpa using hnf f
  obtain ⟨b0, p0, e0, hb0⟩ : ∃ b0 p0, d.text ++ rest = b0 :: p0 ∧ b0 ≠ 37 := by
    rw [et]
    cases d.flags with
    | nil => exact ⟨b, p, rfl, hb⟩
    | cons f fs => exact ⟨_, _, rfl, by cases f <;> decide⟩
  have step : handleControl (.mbuf (some x)) (d.text ++ rest) ap =
      ctlLoop (.mbuf (some x)) (d.text ++ rest).length (b :: p) (ctlOf d.flags) ap := by
    unfold handleControl
    rw [e0]
    dsimp only
    rw [if_neg hb0, ← e0, et, flagLoop_flags d.flags hN _ (Nat.lt_succ_self _), Option.bind_some]
  rw [step, ← e]
  -- width, precision
  have hr : ∃ w ap1 prec ap2 a, getWidth d.width ap = some (w, ap1) ∧ getPrec d.prec ap1 = some (prec, ap2) ∧ ap2 = a :: ap' ∧
      d.conv.render d.flags w prec d.size a = some t := by
    unfold Dir.render at h
    simp only [Option.bind_eq_some_iff] at h
    obtain ⟨⟨w, ap1⟩, h1, ⟨prec, ap2⟩, h2, h⟩ := h
    cases ap2 with
    | nil => simp at h
    | cons a ap2 =>
      simp only [Option.map_eq_some_iff, Prod.mk.injEq] at h
      obtain ⟨t', h3, rfl, rfl⟩ := h
      exact ⟨w, ap1, prec, _, a, h1, h2, rfl, h3⟩
  obtain ⟨w, ap1, prec, ap2, a, h1, h2, rfl, h3⟩ := hr
  have hok1 : ArgsOk ap1 := getWidth_ok h1 hok
  have hok2 := getPrec_ok h2 hok1
  rw [ctl_width _ _ _ rfl rfl (fun ds e => (hw.1 ds e).2.2) h1, ctl_prec _ _ _ rfl rfl (fun ds e => Nat.lt_trans (hw.2 ds e) (by decide)) h2, ctl_size _ _ _ _ _ _ rfl]
  refine ⟨ctl_conv x _ rest ?_ hok2 h3, fun y hy => hok2 y (List.mem_cons_of_mem _ hy)⟩
  intro k hk
  subst hk
  cases hd : d.prec with
  | none => simp [hd, getPrec] at h2
  | some n =>
    cases n with
    | lit ds =>
      simp only [hd, getPrec, Num.get, Option.map_some, Option.some.injEq, Prod.mk.injEq] at h2
      rw [← h2.1]; exact hw.2 ds hd
    | star =>
      rw [hd] at h2
      cases ap1 with
      | nil => simp [getPrec, Num.get] at h2
      | cons a1 ap1 =>
        cases a1 with
        | i v =>
          simp only [getPrec, Num.get, Option.map_some, Option.some.injEq, Prod.mk.injEq] at h2
          have := BitVec.two_mul_toInt_lt (x := v)
          omega
        | _ => simp [getPrec, Num.get] at h2

theorem printLoop_items (items : List Item) : ∀ (f : Nat) (x : List UInt8) (ap : List Arg) (n : Int) (txt : List UInt8), (∀ i ∈ items, i.wf) → ArgsOk ap → render items ap = some txt →
    items.length < f → printLoop f (.mbuf (some x)) (items.flatMap Item.text) ap n = some (.mbuf (some (x ++ txt)), true, n + txt.length) := by
  induction items with
  | nil =>
    intro f x ap n txt _ _ h hf
    cases f with
    | zero => omega
    | succ f =>
      simp only [render, Option.some.injEq] at h
      subst h
      simp [printLoop]
  | cons i items ih =>
    intro f x ap n txt hw hok h hf
    simp only [List.length_cons] at hf
    cases f with
    | zero => omega
    | succ f =>
      have hw' := fun j hj => hw j (List.mem_cons_of_mem _ hj)
      have hi := hw i List.mem_cons_self
      cases i with
      | lit b =>
        simp only [render, Option.map_eq_some_iff] at h
        obtain ⟨t, h, rfl⟩ := h
        simp only [List.flatMap_cons, Item.text, List.cons_append, List.nil_append, printLoop]
        rw [if_neg hi, addByte_mbuf]
        simp only [Option.map_some, Option.bind_some]
        rw [if_neg (by decide), ih f _ _ _ _ hw' hok h (by omega)]
        simp only [List.append_assoc, List.length_cons, List.cons_append, List.nil_append, Option.some.injEq, Prod.mk.injEq, true_and]
        omega
      | percent =>
        simp only [render, Option.map_eq_some_iff] at h
        obtain ⟨t, h, rfl⟩ := h
        simp only [List.flatMap_cons, Item.text, List.cons_append, List.nil_append, printLoop]
        rw [if_pos trivial]
        unfold handleControl
        dsimp only
        rw [if_pos rfl, addByte_mbuf]
        simp only [Option.map_some, Option.bind_some]
        rw [if_neg (by decide), ih f _ _ _ _ hw' hok h (by omega)]
        simp only [List.append_assoc, List.length_cons, List.cons_append, List.nil_append, Option.some.injEq, Prod.mk.injEq, true_and]
        omega
      | dir d =>
        simp only [render, Option.bind_eq_some_iff, Option.map_eq_some_iff] at h
        obtain ⟨r, h1, t, h2, rfl⟩ := h
        obtain ⟨t1, ap'⟩ := r
        obtain ⟨g1, g2⟩ := handleControl_dir x (items.flatMap Item.text) hi hok h1
        simp only [List.flatMap_cons, Item.text, List.cons_append, List.nil_append, printLoop]
        rw [if_pos trivial, g1]
        simp only [Option.bind_some]
        rw [if_neg (by show ¬ (t1.length : Int) = -1; omega), ih f _ _ _ _ hw' g2 h2 (by omega)]
        simp only [List.append_assoc, List.length_append, Option.some.injEq, Prod.mk.injEq, true_and]
        omega

end Verif.StrFmt
