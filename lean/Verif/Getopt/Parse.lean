import Verif.Getopt.Lemmas

/-! The parser follows the rules, and the rules settle every command line without groups of short options. -/

namespace Verif.Getopt
open Verif

/-! ### Values -/

theorem alike_low (a : Bytes) : ∀ b, Str.Alike true a b ↔ low a = low b := by
  have hs (x y : UInt8) : Str.Same true x y ↔ Chr.toLower x = Chr.toLower y := by
    have := Str.fold_iff true x y
    simp only [if_true, UInt8.xor_eq_zero_iff] at this
    exact this.symm
  induction a with
  | nil =>
    intro b
    cases b with
    | nil => exact ⟨fun _ => rfl, fun _ => .nil⟩
    | cons y b => exact ⟨nofun, nofun⟩
  | cons x a ih =>
    intro b
    cases b with
    | nil => exact ⟨nofun, nofun⟩
    | cons y b =>
      have ih := ih b
      rw [low_eq, low_eq] at ih ⊢
      simp only [List.map_cons, List.cons.injEq]
      constructor
      · intro h; cases h with | cons h t => exact ⟨(hs x y).1 h, ih.1 t⟩
      · exact fun h => .cons ((hs x y).2 h.1) (ih.2 h.2)

theorem low_length (w : Bytes) : (low w).length = w.length := by unfold low; simp

theorem eq_low (s c : Bytes) (hc : c.length < 100) : Str.eq true s c = true ↔ low s = low c := by
  have hW : Buf.W - 1 > 1000 := by decide
  unfold Str.eq
  generalize Buf.W - 1 = M at hW ⊢
  rw [Str.eqMax_iff, alike_low, List.take_of_length_le (by omega : c.length ≤ M)]
  by_cases h : s.length ≤ M
  · rw [List.take_of_length_le h]
  · constructor
    · intro e
      have := congrArg List.length e
      rw [low_length, low_length, List.length_take] at this
      omega
    · intro e
      have := congrArg List.length e
      rw [low_length, low_length] at this
      omega

theorem isTrue_iff (s : Bytes) : isTrue s = true ↔ low s ∈ trueWords := by
  unfold isTrue
  by_cases h : s = []
  · subst h; decide
  · rw [if_neg h]
    simp only [Bool.or_eq_true]
    rw [eq_low _ _ (by decide), eq_low _ _ (by decide), eq_low _ _ (by decide), eq_low _ _ (by decide), eq_low _ _ (by decide), eq_low _ _ (by decide)]
    have e1 : low [121, 101, 115] = [121, 101, 115] := by decide
    have e2 : low [121] = [121] := by decide
    have e3 : low [116, 114, 117, 101] = [116, 114, 117, 101] := by decide
    have e4 : low [116] = [116] := by decide
    have e5 : low [49] = [49] := by decide
    have e6 : low [111, 110] = [111, 110] := by decide
    rw [e1, e2, e3, e4, e5, e6]
    unfold trueWords
    simp only [List.mem_cons, List.not_mem_nil, or_false, or_assoc]

theorem conv_sound {ty : Ty} {v : Option Bytes} {r : Option Val} (h : Conv ty v r) : convert ty v = some r := by
  cases h with
  | intNone => rfl
  | int h => unfold convert; simp [h]
  | intBad h hr => unfold convert; simp [h, hr]
  | decNone => rfl
  | dec h => unfold convert; simp [h]
  | decBad h hr => unfold convert; simp [h, hr]
  | string => rfl
  | boolNone => rfl
  | @bool v b h =>
    show some (some (Val.boolean (isTrue v))) = _
    have : isTrue v = b := by rw [Bool.eq_iff_iff, isTrue_iff]; exact h.symm
    rw [this]

/-! ### Names -/

theorem isOption_iff (w : Bytes) : isOption w = true ↔ Dash w := by
  unfold isOption Dash
  cases w <;> simp

theorem named_facts {g : G} (t : Table g) {o : Opt} (ho : o ∈ g.list) {nm : Bytes} (h : Named o nm) :
    Dash nm ∧ 61 ∉ nm ∧ nm ≠ [45] ∧ nm ≠ [45, 45] ∧ ¬ Grouped nm := by
  have hg := t.good o ho
  rcases h with ⟨h0, rfl⟩ | ⟨n, l, rfl, hl, he⟩
  · have hs := hg.1.resolve_left h0
    refine ⟨⟨_, rfl⟩, ?_, by simp, ?_, ?_⟩
    · simp only [List.mem_cons, List.not_mem_nil, or_false, not_or]
      exact ⟨by decide, fun e => hs.2.2.2.1 e.symm⟩
    · intro e; simp only [List.cons.injEq, and_true, true_and] at e; exact hs.2.2.1 e
    · rintro ⟨c, d, t, e, _⟩; simp at e
  · have hs := hg.2 l hl
    have hn : n.length = l.length := by rw [← low_length, he, low_length]
    refine ⟨⟨_, rfl⟩, ?_, by simp, ?_, ?_⟩
    · simp only [List.mem_cons, not_or]
      refine ⟨by decide, by decide, ?_⟩
      intro hm
      have : (61 : UInt8) ∈ low n := by
        unfold low; exact List.mem_map.2 ⟨61, hm, by decide⟩
      rw [he] at this
      unfold low at this
      obtain ⟨c, hc, e⟩ := List.mem_map.1 this
      have e := congrArg UInt8.toNat e
      split at e
      next k =>
        rw [UInt8.toNat_add] at e
        have e1 : (32 : UInt8).toNat = 32 := rfl
        have e2 : (61 : UInt8).toNat = 61 := rfl
        omega
      next => exact (hs.2.1 c hc).2.2.1 (UInt8.toNat_inj.1 e)
    · intro e
      simp only [List.cons.injEq, true_and] at e
      subst e
      exact hs.1 (List.length_eq_zero_iff.1 hn.symm)
    · rintro ⟨c, d, t, e, h⟩
      simp only [List.cons.injEq, true_and] at e
      exact h e.1.symm

theorem option_named {g : G} (t : Table g) {o : Opt} (ho : o ∈ g.list) {nm : Bytes} (h : Named o nm) (cb : Cb) (v : Option Bytes)
    (isval : Bool) (s : St) : option cb g nm v isval s = apply cb o v isval s := by
  rcases h with ⟨h0, rfl⟩ | ⟨n, l, rfl, hl, he⟩
  · have hs := (t.good o ho).1.resolve_left h0
    unfold option
    rw [if_neg (by simpa using hs.2.2.1)]
    show short cb g [o.short] v isval s = _
    unfold short
    rw [if_neg (by simp)]
    show shortOne cb g o.short v isval s = _
    unfold shortOne
    rw [(t.getShort o.short o).2 ⟨ho, rfl, h0⟩]
  · unfold option
    rw [if_pos (by rfl : List.take 2 (45 :: 45 :: n) = [45, 45])]
    show long cb g n v isval s = _
    unfold long
    rw [(t.getLong n o).2 ⟨ho, l, hl, he⟩]

theorem option_unknown {g : G} (t : Table g) {nm : Bytes} (hd : Dash nm) (hg : ¬ Grouped nm) (h : ∀ o ∈ g.list, ¬ Named o nm) (cb : Cb)
    (v : Option Bytes) (isval : Bool) (s : St) : option cb g nm v isval s = some (some .invalidOpt, s) := by
  obtain ⟨x, rfl⟩ := hd
  have hS (c : UInt8) (hc : ∀ o ∈ g.list, c ≠ 0 → o.short ≠ c) : shortOne cb g c v isval s = some (some .invalidOpt, s) := by
    unfold shortOne
    rw [(option_none (t.getShort c)).2 fun o hh => hc o hh.1 hh.2.2 hh.2.1]
  cases x with
  | nil => exact hS 0 fun o _ k => absurd rfl k
  | cons c x =>
    by_cases hc : c = 45
    · subst hc
      unfold option
      rw [if_pos (by rfl : List.take 2 (45 :: 45 :: x) = [45, 45])]
      show long cb g x v isval s = _
      unfold long
      rw [(option_none (t.getLong x)).2 fun o hh => ?_]
      obtain ⟨ho, l, hl, he⟩ := hh
      exact h o ho (Or.inr ⟨x, l, rfl, hl, he⟩)
    · cases x with
      | cons d x => exact absurd ⟨c, d, x, rfl, hc⟩ hg
      | nil =>
        unfold option
        rw [if_neg (by simpa using hc)]
        refine hS c fun o ho h0 e => h o ho (Or.inl ⟨by rw [e]; exact h0, by rw [e]⟩)

/-! ### Joined values -/

theorem split_joined {n v : Bytes} (hn : 61 ∉ n) (hn0 : n ≠ []) (hv : 61 ∉ v) (hv0 : v ≠ []) (h0 : 0 ∉ n ++ 61 :: v) (nx : Option Bytes) :
    split (n ++ 61 :: v) nx = some (.ok (n, some v, true)) := by
  have e : Str.explode 61 (n ++ 61 :: v) = some [n, v] := by
    have hj : Str.join [61] [n, v] = n ++ 61 :: v := by simp [Str.join]
    rw [← hj]
    apply Str.explode_join
    · intro x hx
      simp only [List.mem_cons, List.not_mem_nil, or_false] at hx
      rcases hx with rfl | rfl
      · exact hn
      · exact hv
    · rw [hj]; exact h0
    · rw [hj]; simp
  unfold split
  rw [if_pos (by simp), e]
  simp [hn0, hv0]

theorem split_bad {w : Bytes} (hd : Dash w) (hm : 61 ∈ w) (h0 : 0 ∉ w) (h : ¬ ∃ n v, w = n ++ 61 :: v ∧ 61 ∉ n ∧ 61 ∉ v ∧ v ≠ []) (nx : Option Bytes) :
    split w nx = some (.error .missingValue) := by
  obtain ⟨x, rfl⟩ := hd
  obtain ⟨xs, e, h1, h2, _⟩ := Str.explode_correct 61 (45 :: x) (by simp) h0
  unfold split
  rw [if_pos hm, e, Option.map_some]
  congr 1
  rcases xs with _ | ⟨a, _ | ⟨b, _ | ⟨c, xs⟩⟩⟩
  · rfl
  · rfl
  · dsimp only
    by_cases hb : b = []
    · rw [if_pos (Or.inr hb)]
    · refine absurd ⟨a, b, ?_, h1 a (by simp), h1 b (by simp), hb⟩ h
      rw [← h2]; simp [Str.join]
  · rfl

theorem split_plain {w : Bytes} (hm : 61 ∉ w) (nx : Option Bytes) : split w nx = some (.ok (w, nx.filter fun n => !isOption n, false)) := if_neg hm

/-! ### Uses -/

theorem head_tag (i : Nat) (ws : List Bytes) : (tag i ws).head?.map (·.2) = ws.head? := by cases ws <;> rfl

theorem filter_dash {ws : List Bytes} {i : Nat} (h : ∀ p ∈ (tag i ws).head?, Dash p.2) : ws.head?.filter (fun n => !isOption n) = none := by
  cases ws with
  | nil => rfl
  | cons w ws =>
    have := (isOption_iff w).2 (h (i, w) rfl)
    simp [Option.filter, this]

/-- What the parser does with one use of an option. -/
theorem use_apply {g : G} (t : Table g) {o : Opt} (ho : o ∈ g.list) {i : Nat} {w : Bytes} {rest : List Bytes} {v : Option Bytes} {ws : List (Nat × Bytes)}
    (h : Use o ((i, w) :: tag (i + 1) rest) v ws) (h0 : 0 ∉ w) (cb : Cb) :
    Dash w ∧ w ≠ [45] ∧ w ≠ [45, 45] ∧ (v = none → o.req = false) ∧
    ∃ nm pv isval idx, split w rest.head? = some (.ok (nm, pv, isval)) ∧
      (∀ log, option cb g nm pv isval ⟨i, log⟩ = (optValue cb o v log).map fun r => (if r.1 then none else some .invalidDataType, ⟨idx, r.2⟩)) ∧
      ((idx = i ∧ ws = tag (i + 1) rest) ∨ ∃ x rest', idx = i + 1 ∧ rest = x :: rest' ∧ ws = tag (i + 2) rest') := by
  generalize e : (i, w) :: tag (i + 1) rest = l at h
  cases h with
  | @flag _ _ ws hn hf =>
    cases e
    obtain ⟨a, b, c, d, _⟩ := named_facts t ho hn
    refine ⟨a, c, d, fun _ => hf.2, w, _, false, i, split_plain b _, fun log => ?_, Or.inl ⟨rfl, rfl⟩⟩
    rw [option_named t ho hn]
    unfold apply
    have : verify o (rest.head?.filter fun n => !isOption n) false i = .ok (none, i) := by
      unfold verify
      simp only [hf.1, hf.2]
      cases rest.head?.filter fun n => !isOption n <;> simp
    simp only [this]
  | @joined _ n v ws hn hf hv0 hv =>
    simp only [List.cons.injEq, Prod.mk.injEq] at e
    obtain ⟨⟨rfl, rfl⟩, rfl⟩ := e
    obtain ⟨⟨x, a⟩, b, c, d, _⟩ := named_facts t ho hn
    refine ⟨⟨x ++ 61 :: v, by rw [a]; rfl⟩, ?_, ?_, nofun, n, some v, true, i, split_joined b (by rw [a]; simp) hv hv0 h0 _, fun log => ?_, Or.inl ⟨rfl, rfl⟩⟩
    · intro e
      have := congrArg List.length e
      cases v <;> simp_all
    · intro e
      have : (61 : UInt8) ∈ [(45 : UInt8), 45] := by rw [← e]; simp
      revert this; decide
    rw [option_named t ho hn]
    unfold apply
    have : verify o (some v) true i = .ok (some v, i) := by
      unfold verify
      have hf : o.ty = .boolean → o.req = true := fun k => by
          cases q : o.req with
          | true => rfl
          | false => exact absurd ⟨k, q⟩ hf
      simpa using hf
    simp only [this]
  | @next _ _ j v ws hn hf hv =>
    simp only [List.cons.injEq, Prod.mk.injEq] at e
    obtain ⟨⟨rfl, rfl⟩, e⟩ := e
    cases rest with
    | nil => cases e
    | cons y rest =>
      cases e
      obtain ⟨a, b, c, d, _⟩ := named_facts t ho hn
      refine ⟨a, c, d, nofun, w, _, false, i + 1, split_plain b _, fun log => ?_, Or.inr ⟨v, rest, rfl, rfl, rfl⟩⟩
      rw [option_named t ho hn]
      have hv : isOption v = false := by rw [← Bool.not_eq_true, isOption_iff]; exact hv
      have e : (v :: rest).head?.filter (fun n => !isOption n) = some v := by simp [Option.filter, hv]
      rw [e]
      unfold apply
      have : verify o (some v) false i = .ok (some v, i + 1) := by
        unfold verify
        have hf : o.ty = .boolean → o.req = true := fun k => by
          cases q : o.req with
          | true => rfl
          | false => exact absurd ⟨k, q⟩ hf
        simpa using hf
      simp only [this]
  | @omitted _ _ ws hn hf hr hh =>
    simp only [List.cons.injEq, Prod.mk.injEq] at e
    obtain ⟨⟨rfl, rfl⟩, rfl⟩ := e
    obtain ⟨a, b, c, d, _⟩ := named_facts t ho hn
    refine ⟨a, c, d, fun _ => hr, w, _, false, i, split_plain b _, fun log => ?_, Or.inl ⟨rfl, rfl⟩⟩
    rw [option_named t ho hn, filter_dash hh]
    unfold apply
    have : verify o none false i = .ok (none, i) := by unfold verify; simp [hr]
    simp only [this]

/-! ### The loop -/

/-- The flags of the loop in each phase. -/
def Flags : Phase → Bool → Bool → Prop
  | .opts, d, p => d = false ∧ p = true
  | .others, d, p => d = true ∧ p = true
  | .all, _, p => p = false

theorem loop_cons (cb : Cb) (g : G) {argv : List Bytes} {i : Nat} {w : Bytes} {rest : List Bytes} (h : argv.drop i = w :: rest) (f : Nat)
    (done proc : Bool) (log : List Ev) : parseLoop cb g argv (f + 1) i done proc log =
      if proc = true ∧ w = [45, 45] then parseLoop cb g argv f (i + 1) done false log
      else if proc = true ∧ isOption w = true then
        if done then some ⟨some .invalidOrder, some i, log⟩
        else if w = [45] then some ⟨some .invalidOpt, some i, log⟩
        else (split w rest.head?).bind fun
          | .error e => some ⟨some e, some i, log⟩
          | .ok (o, v, isval) => (option cb g o v isval ⟨i, log⟩).bind fun
            | (some e, s) => some ⟨some e, some i, s.log⟩
            | (none, s) => parseLoop cb g argv f (s.idx + 1) done proc s.log
      else if !g.nonopt then some ⟨some .nonOption, some i, log⟩
      else if !cb log (.nonopt i w) then some ⟨some .nonOption, some i, log ++ [.nonopt i w]⟩
      else parseLoop cb g argv f (i + 1) true proc (log ++ [.nonopt i w]) := by
  have h1 : i < argv.length := by
    apply Classical.byContradiction; intro k
    rw [List.drop_eq_nil_of_le (by omega)] at h; cases h
  have h2 : argv[i]? = some w := by
    have := congrArg List.head? h
    rw [List.head?_drop] at this; exact this
  have h3 : argv[i + 1]? = rest.head? := by
    rw [← List.head?_drop, ← List.drop_drop, h]; rfl
  rw [parseLoop.eq_2, if_neg (by omega), h2, h3]
  rfl

theorem drop_next {argv : List Bytes} {i : Nat} {w : Bytes} {rest : List Bytes} (h : argv.drop i = w :: rest) : argv.drop (i + 1) = rest := by
  rw [← List.drop_drop, h]; rfl

/-- The parser does what the rules say. -/
theorem run_sound {g : G} (t : Table g) (cb : Cb) {argv : List Bytes} (h0 : ∀ w ∈ argv, 0 ∉ w) {p : Phase} {ws : List (Nat × Bytes)} {log : List Ev} {r : Out}
    (h : Run False g.list g.nonopt cb p ws log r) : ∀ i f done proc, ws = tag i (argv.drop i) → argv.length < f + i ∧ 0 < f → Flags p done proc →
      parseLoop cb g argv f i done proc log = some r := by
  -- the state of the loop at an argument
  have at_ {i f : Nat} {j : Nat} {w : Bytes} {ws : List (Nat × Bytes)} (e : (j, w) :: ws = tag i (argv.drop i)) (hf : argv.length < f + i ∧ 0 < f) :
      ∃ rest f', argv.drop i = w :: rest ∧ j = i ∧ ws = tag (i + 1) rest ∧ f = f' + 1 ∧ (argv.length < f' + (i + 1) ∧ 0 < f') ∧ 0 ∉ w := by
    cases k : argv.drop i with
    | nil => rw [k] at e; cases e
    | cons y rest =>
      rw [k] at e
      simp only [tag, List.cons.injEq, Prod.mk.injEq] at e
      obtain ⟨⟨rfl, rfl⟩, rfl⟩ := e
      have h1 : j < argv.length := by
        apply Classical.byContradiction; intro k'
        rw [List.drop_eq_nil_of_le (by omega)] at k; cases k
      have h2 : w ∈ argv := List.mem_of_mem_drop (i := j) (by rw [k]; simp)
      cases f with
      | zero => omega
      | succ f' => exact ⟨rest, f', rfl, rfl, rfl, rfl, by omega, h0 w h2⟩
  have plain {p : Phase} {w : Bytes} {done proc : Bool} (hp : p = .all ∨ ¬ Dash w) (hf : Flags p done proc) :
      ¬ (proc = true ∧ w = [45, 45]) ∧ ¬ (proc = true ∧ isOption w = true) := by
    rcases hp with rfl | hp
    · have : proc = false := hf
      subst this
      exact ⟨fun k => (nomatch k.1), fun k => (nomatch k.1)⟩
    · exact ⟨fun k => hp ⟨_, k.2⟩, fun k => hp ((isOption_iff w).1 k.2)⟩
  induction h with
  | @done p log =>
    intro i f done proc e hf _
    have : argv.length ≤ i := by
      cases k : argv.drop i with
      | nil => exact List.drop_eq_nil_iff.1 k
      | cons y rest => rw [k] at e; cases e
    cases f with
    | zero => omega
    | succ f => rw [parseLoop.eq_2, if_pos this]
  | @stop p j ws log r hp _ ih =>
    intro i f done proc e hf hfl
    obtain ⟨rest, f, k1, rfl, k2, rfl, k3, _⟩ := at_ e hf
    have : proc = true := by
      cases p
      · exact hfl.2
      · exact hfl.2
      · exact absurd rfl hp
    rw [loop_cons cb g k1, if_pos ⟨this, rfl⟩]
    exact ih _ _ _ _ (by rw [drop_next k1]; exact k2) k3 rfl
  | @other p j w ws log r hp hn hc _ ih =>
    intro i f done proc e hf hfl
    obtain ⟨rest, f, k1, rfl, k2, rfl, k3, _⟩ := at_ e hf
    obtain ⟨q1, q2⟩ := plain hp hfl
    rw [loop_cons cb g k1, if_neg q1, if_neg q2, if_neg (by rw [hn]; simp), if_neg (by rw [hc]; simp)]
    refine ih _ _ _ _ (by rw [drop_next k1]; exact k2) k3 ?_
    cases p
    · exact ⟨rfl, hfl.2⟩
    · exact ⟨rfl, hfl.2⟩
    · exact hfl
  | @otherRefused p j w ws log hp hn hc =>
    intro i f done proc e hf hfl
    obtain ⟨rest, f, k1, rfl, k2, rfl, k3, _⟩ := at_ e hf
    obtain ⟨q1, q2⟩ := plain hp hfl
    rw [loop_cons cb g k1, if_neg q1, if_neg q2, if_neg (by rw [hn]; simp), if_pos (by rw [hc]; rfl)]
  | @otherNone p j w ws log hp hn =>
    intro i f done proc e hf hfl
    obtain ⟨rest, f, k1, rfl, k2, rfl, k3, _⟩ := at_ e hf
    obtain ⟨q1, q2⟩ := plain hp hfl
    rw [loop_cons cb g k1, if_neg q1, if_neg q2, if_pos (by rw [hn]; rfl)]
  | @late j w ws log hd hne =>
    intro i f done proc e hf hfl
    obtain ⟨rest, f, k1, rfl, k2, rfl, k3, _⟩ := at_ e hf
    obtain ⟨rfl, rfl⟩ := hfl
    rw [loop_cons cb g k1, if_neg (fun k => hne k.2), if_pos ⟨rfl, (isOption_iff w).2 hd⟩]
    rfl
  | @dash j ws log =>
    intro i f done proc e hf hfl
    obtain ⟨rest, f, k1, rfl, k2, rfl, k3, _⟩ := at_ e hf
    obtain ⟨rfl, rfl⟩ := hfl
    rw [loop_cons cb g k1, if_neg (by simp), if_pos ⟨rfl, by decide⟩]
    rfl
  | @badJoin j w ws log hd hm hb =>
    intro i f done proc e hf hfl
    obtain ⟨rest, f, k1, rfl, k2, rfl, k3, k0⟩ := at_ e hf
    obtain ⟨rfl, rfl⟩ := hfl
    rw [loop_cons cb g k1, if_neg (by rintro ⟨_, rfl⟩; revert hm; decide), if_pos ⟨rfl, (isOption_iff w).2 hd⟩, if_neg (by simp),
      if_neg (by rintro rfl; revert hm; decide), split_bad hd hm k0 hb]
    rfl
  | @unknown j nm w ws log hd hne hw hm hg hu =>
    intro i f done proc e hf hfl
    obtain ⟨rest, f, k1, rfl, k2, rfl, k3, k0⟩ := at_ e hf
    obtain ⟨rfl, rfl⟩ := hfl
    have hdw : Dash w := by
      obtain ⟨x, rfl⟩ := hd
      rcases hw with rfl | ⟨v, _, _, rfl⟩
      · exact ⟨_, rfl⟩
      · exact ⟨_, rfl⟩
    rw [loop_cons cb g k1]
    by_cases k4 : w = [45]
    · subst k4
      rw [if_neg (by simp), if_pos ⟨rfl, by decide⟩]
      rfl
    rw [if_neg, if_pos ⟨rfl, (isOption_iff w).2 hdw⟩, if_neg (by simp), if_neg k4]
    · rcases hw with rfl | ⟨v, hv0, hv, rfl⟩
      · rw [split_plain hm]
        simp only [Option.bind_some, option_unknown t hd hg hu]
      · rw [split_joined hm (by obtain ⟨x, rfl⟩ := hd; simp) hv hv0 k0]
        simp only [Option.bind_some, option_unknown t hd hg hu]
    · rintro ⟨_, rfl⟩
      rcases hw with rfl | ⟨v, _, _, k⟩
      · simp at hne
      · have : (61 : UInt8) ∈ [(45 : UInt8), 45] := by rw [k]; simp
        revert this; decide
  | @missing o j w ws log ho hn hr hh =>
    intro i f done proc e hf hfl
    obtain ⟨rest, f, k1, rfl, rfl, rfl, k3, k0⟩ := at_ e hf
    obtain ⟨rfl, rfl⟩ := hfl
    obtain ⟨a, b, c, d, _⟩ := named_facts t ho hn
    rw [loop_cons cb g k1, if_neg (fun k => d k.2), if_pos ⟨rfl, (isOption_iff w).2 a⟩, if_neg (by simp), if_neg c, split_plain b, filter_dash hh]
    have : apply cb o none false ⟨j, log⟩ = some (some .missingValue, ⟨j, log⟩) := by unfold apply verify; simp [hr]
    simp only [Option.bind_some, option_named t ho hn, this]
  | @flagJoin o j w v ws log ho hn hfg hv0 hv =>
    intro i f done proc e hf hfl
    obtain ⟨rest, f, k1, rfl, rfl, rfl, k3, k0⟩ := at_ e hf
    obtain ⟨rfl, rfl⟩ := hfl
    obtain ⟨⟨x, a⟩, b, c, d, _⟩ := named_facts t ho hn
    have q : ∀ l : Bytes, 61 ∉ l → w ++ 61 :: v ≠ l := by rintro l hl rfl; exact hl (by simp)
    rw [loop_cons cb g k1, if_neg (fun k => q _ (by decide) k.2), if_pos ⟨rfl, (isOption_iff _).2 ⟨x ++ 61 :: v, by rw [a]; rfl⟩⟩, if_neg (by simp),
      if_neg (q _ (by decide)), split_joined b (by rw [a]; simp) hv hv0 k0]
    have : apply cb o (some v) true ⟨j, log⟩ = some (some .invalidDataType, ⟨j, log⟩) := by unfold apply verify; simp [hfg.1, hfg.2]
    simp only [Option.bind_some, option_named t ho hn, this]
  | @badValue o j w ws v ws' log ho hu hv =>
    intro i f done proc e hf hfl
    obtain ⟨rest, f, k1, rfl, rfl, rfl, k3, k0⟩ := at_ e hf
    obtain ⟨rfl, rfl⟩ := hfl
    obtain ⟨a, b, c, _, nm, pv, isval, idx, q1, q2, _⟩ := use_apply t ho hu k0 cb
    rw [loop_cons cb g k1, if_neg (fun k => c k.2), if_pos ⟨rfl, (isOption_iff _).2 a⟩, if_neg (by simp), if_neg b, q1]
    have : optValue cb o v log = some (false, log) := by unfold optValue; rw [conv_sound hv]; rfl
    simp only [Option.bind_some, q2, this, Option.map_some]
    rfl
  | @refused o j w ws v x ws' log ho hu hv hc =>
    intro i f done proc e hf hfl
    obtain ⟨rest, f, k1, rfl, rfl, rfl, k3, k0⟩ := at_ e hf
    obtain ⟨rfl, rfl⟩ := hfl
    obtain ⟨a, b, c, _, nm, pv, isval, idx, q1, q2, _⟩ := use_apply t ho hu k0 cb
    rw [loop_cons cb g k1, if_neg (fun k => c k.2), if_pos ⟨rfl, (isOption_iff _).2 a⟩, if_neg (by simp), if_neg b, q1]
    have : optValue cb o v log = some (false, log ++ [.opt o x]) := by unfold optValue; rw [conv_sound hv]; simp [hc]
    simp only [Option.bind_some, q2, this, Option.map_some]
    rfl
  | @opt o j w ws v x ws' log r ho hu hv hc _ ih =>
    intro i f done proc e hf hfl
    obtain ⟨rest, f, k1, rfl, rfl, rfl, k3, k0⟩ := at_ e hf
    obtain ⟨rfl, rfl⟩ := hfl
    obtain ⟨a, b, c, _, nm, pv, isval, idx, q1, q2, q3⟩ := use_apply t ho hu k0 cb
    rw [loop_cons cb g k1, if_neg (fun k => c k.2), if_pos ⟨rfl, (isOption_iff _).2 a⟩, if_neg (by simp), if_neg b, q1]
    have : optValue cb o v log = some (true, log ++ [.opt o x]) := by unfold optValue; rw [conv_sound hv]; simp [hc]
    simp only [Option.bind_some, q2, this, Option.map_some, if_true]
    rcases q3 with ⟨rfl, rfl⟩ | ⟨y, rest', rfl, rfl, rfl⟩
    · exact ih _ _ _ _ (by rw [drop_next k1]) k3 ⟨rfl, rfl⟩
    · exact ih _ _ _ _ (by rw [drop_next (drop_next k1)]) (by omega) ⟨rfl, rfl⟩
  | group hg => exact hg.elim

end Verif.Getopt
