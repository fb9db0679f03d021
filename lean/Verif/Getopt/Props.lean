import Verif.Getopt.Parse

/-!
Command line options: which options an object accepts, and what parsing a command line does.  The specification is
`Verif.Getopt.Run` with `Named`, `Use` and `Conv`.
-/

namespace Verif.Getopt
open Verif

/-! ### Adding options -/

/-- An option is accepted exactly if it has a name, its names are made of allowed characters and no earlier option has one
of them; the options are then the earlier ones and this one. -/
theorem add_iff {g : G} (h : Made g) (o : Opt) :
    (add g o ≠ none ↔ (o.short ≠ 0 ∨ o.long ≠ none) ∧ (o.short ≠ 0 → GoodShort o.short) ∧ (∀ l, o.long = some l → GoodLong l) ∧
      ∀ o' ∈ g.list, ¬ Clash o o') ∧
    ∀ g', add g o = some g' → g'.list = g.list ++ [o] ∧ g'.nonopt = g.nonopt :=
  ⟨(add_table h.table o).1, fun g' e => ((add_table h.table o).2 g' e).2⟩

/-- `-v`, `--verbose`. -/
def oV : Opt := ⟨.boolean, 118, some [118, 101, 114, 98, 111, 115, 101], false⟩
/-- `-n <val>`. -/
def oN : Opt := ⟨.integer, 110, none, true⟩
/-- `-o [val]`, `--out [val]`. -/
def oO : Opt := ⟨.string, 111, some [111, 117, 116], false⟩
/-- Another `--OUT`. -/
def oX : Opt := ⟨.string, 120, some [79, 85, 84], false⟩

/-- An object with three options. -/
def three : G := ⟨[(118, oV), (110, oN), (111, oO)], [([118, 101, 114, 98, 111, 115, 101], oV), ([111, 117, 116], oO)], [oV, oN, oO], true⟩

theorem three_made : Made three := by
  have h : ((add (create true) oV).bind fun g => (add g oN).bind fun g => add g oO) = some three := by decide +kernel
  rw [Option.bind_eq_some_iff] at h
  obtain ⟨g1, e1, h⟩ := h
  rw [Option.bind_eq_some_iff] at h
  obtain ⟨g2, e2, e3⟩ := h
  exact ((Made.create true).add e1).add e2 |>.add e3

example : add three oX = none := by decide +kernel
example : Clash oX oO := Or.inr ⟨_, _, rfl, rfl, by decide⟩

/-! ### Every command line without groups is settled -/

/-- The number parser never runs into trouble. -/
theorem int_total {v : Bytes} (h0 : 0 ∉ v) : ∃ r, Conv .integer (some v) r := by
  by_cases hv : v = []
  · subst hv
    exact ⟨none, .intBad (rv := .invalid) (r := none) rfl (by decide)⟩
  have hi : Num.Inv v [0] v.length := ⟨h0, by simp, Or.inl rfl⟩
  obtain ⟨n1, e1, i1⟩ := Num.eatWs_spec hi
  obtain ⟨n2, e2, i2⟩ := Num.sign_spec i1
  obtain ⟨rv, e3, _⟩ := Num.toUint64Int_spec (base := 10) ⟨by decide, by decide⟩ i2
  have : ∃ rv x, Num.toInt64Ex (v ++ [0]) v.length 10 = some (rv, some x) := by
    unfold Num.toInt64Ex Num.prep Num.autoBase
    rw [if_neg (by simpa using hv)]
    simp only [e1, e2, Option.bind_eq_bind, Option.bind_some]
    rw [if_neg (by decide), Option.bind_some, if_neg (by decide), Option.bind_some]
    simp only [e3, Option.bind_some]
    repeat' split
    all_goals exact ⟨_, _, rfl⟩
  obtain ⟨rv, x, e⟩ := this
  by_cases hr : rv = .success
  · subst hr; exact ⟨_, .int (n := x.1) (e := x.2) e⟩
  · exact ⟨_, .intBad e hr⟩

/-- The value of every decimal that is given can be converted or refused without undefined behaviour. -/
def Safe (opts : List Opt) (v : Bytes) : Prop := (∃ o ∈ opts, o.ty = .decimal) → Decimal.fromStr (v ++ [0]) v.length ≠ none

theorem conv_total {opts : List Opt} {o : Opt} (ho : o ∈ opts) {v : Option Bytes} (h : ∀ x, v = some x → 0 ∉ x ∧ Safe opts x) : ∃ r, Conv o.ty v r := by
  cases ht : o.ty with
  | integer =>
    cases v with
    | none => exact ⟨_, .intNone⟩
    | some v => exact int_total (h v rfl).1
  | decimal =>
    cases v with
    | none => exact ⟨_, .decNone⟩
    | some v =>
      have := (h v rfl).2 ⟨o, ho, ht⟩
      cases e : Decimal.fromStr (v ++ [0]) v.length with
      | none => exact absurd e this
      | some r =>
        obtain ⟨rv, d, x⟩ := r
        by_cases hr : rv = .success
        · subst hr; exact ⟨_, .dec e⟩
        · exact ⟨_, .decBad e hr⟩
  | string => exact ⟨_, .string⟩
  | boolean =>
    cases v with
    | none => exact ⟨_, .boolNone⟩
    | some v =>
      by_cases hv : low v ∈ trueWords
      · exact ⟨_, .bool (b := true) (by simp [hv])⟩
      · exact ⟨_, .bool (b := false) (by simp [hv])⟩

/-- No argument before `--` puts several short options together. -/
def Ungrouped (ws : List Bytes) : Prop :=
  ∀ w ∈ ws.takeWhile (· ≠ [45, 45]), ∀ nm, (w = nm ∨ ∃ v, w = nm ++ 61 :: v) → 61 ∉ nm → ¬ Grouped nm

/-- The arguments are C strings, and decimals among them can be converted or refused. -/
def Words (opts : List Opt) (ws : List Bytes) : Prop := ∀ w ∈ ws, 0 ∉ w ∧ Safe opts w ∧ ∀ n v, w = n ++ 61 :: v → Safe opts v

theorem ungrouped_tail {w : Bytes} {ws : List Bytes} (h : Ungrouped (w :: ws)) (hw : w ≠ [45, 45]) : Ungrouped ws := by
  intro x hx
  apply h
  rw [List.takeWhile_cons, if_pos (by simpa using hw)]
  exact List.mem_cons_of_mem _ hx

/-- Given one use of an option, and what happens after it, the rules apply. -/
theorem use_total {opts : List Opt} {nonopt : Bool} {cb : Cb} {o : Opt} (ho : o ∈ opts) {i : Nat} {w : Bytes} {ws ws' : List (Nat × Bytes)} {v : Option Bytes}
    (hu : Use o ((i, w) :: ws) v ws') (hv : ∀ x, v = some x → 0 ∉ x ∧ Safe opts x) (ih : ∀ log, ∃ r, Run False opts nonopt cb .opts ws' log r) (log : List Ev) :
    ∃ r, Run False opts nonopt cb .opts ((i, w) :: ws) log r := by
  obtain ⟨r, hr⟩ := conv_total ho hv
  cases r with
  | none => exact ⟨_, .badValue ho hu hr⟩
  | some x =>
    cases hc : cb log (.opt o x) with
    | false => exact ⟨_, .refused ho hu hr hc⟩
    | true =>
      obtain ⟨r, h⟩ := ih (log ++ [.opt o x])
      exact ⟨r, .opt ho hu hr hc h⟩

theorem run_total (opts : List Opt) (nonopt : Bool) (cb : Cb) (n : Nat) : ∀ (p : Phase) (ws : List Bytes) (i : Nat) (log : List Ev), ws.length = n →
    (p = .opts → Ungrouped ws) → Words opts ws → ∃ r, Run False opts nonopt cb p (tag i ws) log r := by
  induction n using Nat.strongRecOn with
  | ind n ih =>
    intro p ws i log hl hg hw
    cases ws with
    | nil => exact ⟨_, .done⟩
    | cons w ws =>
      have hlt : ws.length < n := by rw [← hl]; simp
      have hws : Words opts ws := fun x hx => hw x (List.mem_cons_of_mem _ hx)
      obtain ⟨hw0, hw1, hw2⟩ := hw w (by simp)
      by_cases h1 : p = .all ∨ ¬ Dash w
      · cases hn : nonopt with
        | false => subst hn; exact ⟨_, .otherNone h1 rfl⟩
        | true =>
          cases hc : cb log (.nonopt i w) with
          | false => exact ⟨_, .otherRefused h1 rfl hc⟩
          | true =>
            obtain ⟨r, h⟩ := ih ws.length hlt (if p = .all then .all else .others) ws (i + 1) (log ++ [.nonopt i w]) rfl
              (by intro e; split at e <;> cases e) hws
            rw [hn] at h
            exact ⟨r, .other h1 rfl hc h⟩
      · simp only [not_or, Classical.not_not] at h1
        by_cases h2 : w = [45, 45]
        · subst h2
          obtain ⟨r, h⟩ := ih ws.length hlt .all ws (i + 1) log rfl nofun hws
          exact ⟨r, .stop h1.1 h⟩
        cases p with
        | all => exact absurd rfl h1.1
        | others => exact ⟨_, .late h1.2 h2⟩
        | opts =>
          have hg := hg rfl
          have hgt := ungrouped_tail hg h2
          have hgw := hg w (by rw [List.takeWhile_cons, if_pos (by simpa using h2)]; simp)
          have ihs : ∀ log, ∃ r, Run False opts nonopt cb .opts (tag (i + 1) ws) log r := fun log =>
            ih ws.length hlt .opts ws (i + 1) log rfl (fun _ => hgt) hws
          by_cases h4 : 61 ∈ w
          · by_cases h5 : ∃ n v, w = n ++ 61 :: v ∧ 61 ∉ n ∧ 61 ∉ v ∧ v ≠ []
            · obtain ⟨nm, v, rfl, a, b, c⟩ := h5
              have hd : Dash nm := by
                obtain ⟨x, e⟩ := h1.2
                cases nm with
                | nil => simp at e
                | cons y nm => simp only [List.cons_append, List.cons.injEq] at e; exact ⟨nm, by rw [e.1]⟩
              by_cases h6 : ∃ o ∈ opts, Named o nm
              · obtain ⟨o, ho, hn⟩ := h6
                by_cases h7 : Flag o
                · exact ⟨_, .flagJoin ho hn h7 c b⟩
                · refine use_total ho (.joined hn h7 c b) ?_ ihs log
                  intro x e
                  cases e
                  exact ⟨fun k => hw0 (by simp [k]), hw2 nm v rfl⟩
              · refine ⟨_, .unknown hd (Or.inr ?_) (Or.inr ⟨v, c, b, rfl⟩) a (hgw nm (Or.inr ⟨v, rfl⟩) a) fun o ho k => h6 ⟨o, ho, k⟩⟩
                intro e
                have := congrArg List.length e
                simp at this
            · exact ⟨_, .badJoin h1.2 h4 h5⟩
          · by_cases h6 : ∃ o ∈ opts, Named o w
            · obtain ⟨o, ho, hn⟩ := h6
              by_cases h7 : Flag o
              · exact use_total ho (.flag hn h7) (fun _ e => (nomatch e)) ihs log
              · by_cases h8 : ∀ p ∈ (tag (i + 1) ws).head?, Dash p.2
                · cases hr : o.req with
                  | true => exact ⟨_, .missing ho hn hr h8⟩
                  | false => exact use_total ho (.omitted hn h7 hr h8) (fun _ e => (nomatch e)) ihs log
                · cases ws with
                  | nil => exact absurd (fun p hp => (nomatch hp)) h8
                  | cons y ws =>
                    have hy : ¬ Dash y := by
                      intro k
                      apply h8
                      intro p hp
                      cases hp
                      exact k
                    refine use_total ho (.next hn h7 hy) ?_ (fun log => ih ws.length ?_ .opts ws (i + 2) log rfl (fun _ => ungrouped_tail hgt ?_) fun x hx => hws x (List.mem_cons_of_mem _ hx)) log
                    · intro x e
                      cases e
                      exact ⟨(hws y (by simp)).1, (hws y (by simp)).2.1⟩
                    · simp only [List.length_cons] at hlt; omega
                    · rintro rfl; exact hy ⟨_, rfl⟩
            · exact ⟨_, .unknown h1.2 (Or.inl h2) (Or.inl rfl) h4 (hgw w (Or.inl rfl) h4) fun o ho k => h6 ⟨o, ho, k⟩⟩

/-- For every object, every command line without groups of short options, and whatever the callbacks answer: parsing makes
the calls that the rules prescribe, in their order and with the values of the right types, and ends with the error and the
argument that they prescribe.  Missing: groups of short options (`group_fails`). -/
theorem parse_partial {g : G} (hg : Made g) (cb : Cb) (app : Bytes) (args : List Bytes) (h0 : 0 ∉ app) (hw : Words g.list args) (hu : Ungrouped args) (r : Out) :
    parse cb g (app :: args) = some r ↔ Run False g.list g.nonopt cb .opts (tag 1 args) [] r := by
  have hs : ∀ r, Run False g.list g.nonopt cb .opts (tag 1 args) [] r → parse cb g (app :: args) = some r := by
    intro r h
    unfold parse
    rw [if_neg (by simp)]
    refine run_sound hg.table cb ?_ h 1 _ false true rfl ⟨by omega, by omega⟩ ⟨rfl, rfl⟩
    intro w hm
    rcases List.mem_cons.1 hm with rfl | hm
    · exact h0
    · exact (hw w hm).1
  refine ⟨fun h => ?_, hs r⟩
  obtain ⟨r', h'⟩ := run_total g.list g.nonopt cb args.length .opts args 1 [] rfl (fun _ => hu) hw
  have := (hs r' h').symm.trans h
  cases this
  exact h'

/-- Parsing always ends, with defined behaviour. -/
theorem parse_total {g : G} (hg : Made g) (cb : Cb) (app : Bytes) (args : List Bytes) (h0 : 0 ∉ app) (hw : Words g.list args) (hu : Ungrouped args) :
    parse cb g (app :: args) ≠ none := by
  obtain ⟨r, h⟩ := run_total g.list g.nonopt cb args.length .opts args 1 [] rfl (fun _ => hu) hw
  rw [(parse_partial hg cb app args h0 hw hu r).2 h]
  nofun

/-! ### Samples -/

/-- `prog`. -/
def prog : Bytes := [112, 114, 111, 103]

/-- `prog -v --OUT=f -n 42 x -- -y`. -/
def sampleArgs : List Bytes := [[45, 118], [45, 45, 79, 85, 84, 61, 102], [45, 110], [52, 50], [120], [45, 45], [45, 121]]

example : Ungrouped sampleArgs := by
  intro w hw nm he hn
  have e : sampleArgs.takeWhile (· ≠ [45, 45]) = [[45, 118], [45, 45, 79, 85, 84, 61, 102], [45, 110], [52, 50], [120]] := by decide
  rw [e] at hw
  simp only [List.mem_cons, List.not_mem_nil, or_false] at hw
  rintro ⟨c, d, t, rfl, hc⟩
  rcases hw with rfl | rfl | rfl | rfl | rfl <;> rcases he with he | ⟨v, he⟩ <;> simp_all

example : Words three.list sampleArgs := by
  intro w hw
  refine ⟨?_, fun ⟨o, ho, e⟩ => ?_, fun _ _ _ ⟨o, ho, e⟩ => ?_⟩
  · revert w; decide
  · exact absurd e ((by decide : ∀ o ∈ three.list, o.ty ≠ .decimal) o ho)
  · exact absurd e ((by decide : ∀ o ∈ three.list, o.ty ≠ .decimal) o ho)

example : parse (fun _ _ => true) three (prog :: sampleArgs) =
    some ⟨none, none, [.opt oV (.boolean true), .opt oO (.string (some [102])), .opt oN (.integer (some 42)), .nonopt 5 [120], .nonopt 7 [45, 121]]⟩ := by
  decide +kernel

/-- `-n -5`: a value that begins with a dash must be joined. -/
example : parse (fun _ _ => true) three [prog, [45, 110], [45, 53]] = some ⟨some .missingValue, some 1, []⟩ := by decide +kernel

/-- `-n=-5`. -/
example : parse (fun _ _ => true) three [prog, [45, 110, 61, 45, 53]] = some ⟨none, none, [.opt oN (.integer (some (-5)))]⟩ := by decide +kernel

/-! ### Where the code falls short -/

/-- `-vo f x` means `-v -o f x`. -/
theorem group_rule : Run True three.list three.nonopt (fun _ _ => true) .opts (tag 1 [[45, 118, 111], [102], [120]]) []
    ⟨none, none, [.opt oV (.boolean true), .opt oO (.string (some [102])), .nonopt 3 [120]]⟩ := by
  refine .group trivial (by decide) (by decide) (by decide) (by decide) ?_
  refine .opt (o := oV) (v := none) (by decide) (.flag (Or.inl ⟨by decide, rfl⟩) ⟨rfl, rfl⟩) .boolNone rfl ?_
  refine .opt (o := oO) (v := some [102]) (by decide) (.next (Or.inl ⟨by decide, rfl⟩) (by rintro ⟨h, _⟩; cases h) (by rintro ⟨t, h⟩; simp at h)) .string rfl ?_
  exact .other (Or.inr (by rintro ⟨t, h⟩; simp at h)) rfl rfl .done

/-- With groups the rules are not followed: in `-vo f x` the callback for `-v` is called once more after that for `-o`. -/
theorem group_fails : parse (fun _ _ => true) three [prog, [45, 118, 111], [102], [120]] =
    some ⟨none, none, [.opt oV (.boolean true), .opt oO (.string (some [102])), .opt oV (.boolean true), .nonopt 3 [120]]⟩ := by decide +kernel

/-- In `-on 7 x` the option `-o`, which may have a value, is processed again: it is given the value of `-n`
and the argument `x` is lost. -/
theorem group_lost_fails : parse (fun _ _ => true) three [prog, [45, 111, 110], [55], [120]] =
    some ⟨none, none, [.opt oO (.string none), .opt oN (.integer (some 7)), .opt oO (.string (some [55]))]⟩ := by decide +kernel

/-- `-vo=f` is refused after both callbacks were called with the right values. -/
theorem group_joined_fails : parse (fun _ _ => true) three [prog, [45, 118, 111, 61, 102]] =
    some ⟨some .invalidDataType, some 1, [.opt oV (.boolean true), .opt oO (.string (some [102]))]⟩ := by decide +kernel

/-- `-n 12x`: what follows the number is ignored. -/
theorem trailing_fails : parse (fun _ _ => true) three [prog, [45, 110], [49, 50, 120]] = some ⟨none, none, [.opt oN (.integer (some 12))]⟩ := by
  decide +kernel

end Verif.Getopt
