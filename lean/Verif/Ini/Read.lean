import Verif.Ini.Doc
/- Reading a file of lines. -/
namespace Verif.Ini
open Verif.Chr Verif.Str

/-- The text of a file: every line with its end; the last one may come without. -/
def fileText (st : Settings) (ls : List Line) (last : Option Line) : List UInt8 := ls.flatMap (fun l => l.text st ++ [st.delim]) ++ (last.map (·.text st)).getD []

/-- What ends a line or begins a comment. -/
def cutL (st : Settings) (c : UInt8) : Bool := ceq c st.delim || ceq c st.comment

section
variable {st : Settings} (hs : Sane st)
include hs

theorem step_eq (p : Option UInt8) (on : Bool) (c n : UInt8) : step st p on false c n = qstep st.quote st.escape p on c n := by
  unfold step qstep
  by_cases h : st.quote ≠ 0 ∧ ceq c st.quote = true
  · have he := (hs.escape h.1).1
    rw [if_pos ⟨h.1, h.2, rfl⟩, if_pos h]
    simp [he]
  · rw [if_neg (fun x => h ⟨x.1, x.2.1⟩), if_neg h]

theorem walk_seg {n : UInt8} {x : List UInt8} {p p' : Option UInt8} {on on' : Bool} {rest : List UInt8} (h : Seg st.quote st.escape (cutL st) n x p on p' on') (hr : rest.headD 0 = n) (z : Bool)
    (cur : List UInt8) : walk st z (x ++ rest) p on false cur = walk st z rest p' on' false (cur ++ x) := by
  subst hr
  induction h generalizing cur with
  | nil p on => simp
  | @go c x p p' on on1 on' h hc t ih =>
    have hh : (x ++ rest).headD 0 = x.headD (rest.headD 0) := by cases x <;> rfl
    rw [← hh, ← step_eq hs] at h
    have e1 : cur ++ c :: x = (cur ++ [c]) ++ x := by simp
    rw [e1, ← ih, List.cons_append]
    have hd : ¬ (ceq c st.delim = true ∧ on1 = false) := fun e => hc ⟨by simp [cutL, e.1], e.2⟩
    have hm : ¬ (ceq c st.comment = true ∧ on1 = false) := fun e => hc ⟨by simp [cutL, e.1], e.2⟩
    have hm2 : (false || decide (st.comment ≠ 0 ∧ ceq c st.comment = true ∧ on1 = false)) = false := by
      simp only [Bool.false_or, decide_eq_false_iff_not]; exact fun e => hm e.2
    generalize x ++ rest = y at h
    cases y with
    | nil => unfold walk; simp only [List.headD_nil] at h; rw [h]; simp [if_neg hd]
    | cons d' r =>
      conv => lhs; unfold walk
      simp only [List.headD_cons] at h; rw [h]; simp only [if_neg hd, hm2]
  | @skip c x p p' on on' h t ih =>
    have hh : (x ++ rest).headD 0 = x.headD (rest.headD 0) := by cases x <;> rfl
    rw [← hh, ← step_eq hs] at h
    have e1 : cur ++ c :: x = (cur ++ [c]) ++ x := by simp
    rw [e1, ← ih, List.cons_append]
    generalize x ++ rest = y at h
    cases y with
    | nil => unfold walk; simp only [List.headD_nil] at h; rw [h]; simp
    | cons d' r =>
      conv => lhs; unfold walk
      simp only [List.headD_cons] at h; rw [h]
  | @skip2 c d' x p p' on on' h t ih =>
    rw [← step_eq hs] at h
    have e1 : cur ++ c :: d' :: x = (cur ++ [c, d']) ++ x := by simp
    rw [e1, ← ih, List.cons_append, List.cons_append]
    conv => lhs; unfold walk
    rw [h]

/-- Within a comment only the end of the line counts. -/
theorem walk_comment (x : List UInt8) (hx : ∀ c ∈ x, c ≠ st.delim) (rest : List UInt8) (z : Bool) (p : Option UInt8) (cur : List UInt8) :
    walk st z (x ++ rest) p false true cur = walk st z rest (x.getLast?.or p) false true (cur ++ x) := by
  induction x generalizing p cur with
  | nil => simp
  | cons c x ih =>
    have e1 : cur ++ c :: x = (cur ++ [c]) ++ x := by simp
    have e2 : (c :: x).getLast?.or p = x.getLast?.or (some c) := by rw [List.getLast?_cons]; cases x.getLast? <;> rfl
    rw [e1, e2, ← ih (fun c hc => hx c (by simp [hc])), List.cons_append]
    have hst : ∀ n, step st p false true c n = .go false := by
      intro n; unfold step; rw [if_neg (by simp)]
    have hd := ceq_false (hx c (by simp))
    generalize x ++ rest = y
    cases y with
    | nil => unfold walk; rw [hst]; simp [hd]
    | cons d' r =>
      conv => lhs; unfold walk
      rw [hst]; simp [hd]

/-- The comment character. -/
theorem walk_mark (rest : List UInt8) (z : Bool) (p : Option UInt8) (cur : List UInt8) :
    walk st z (st.comment :: rest) p false false cur = walk st z rest (some st.comment) false true (cur ++ [st.comment]) := by
  have hst : ∀ n, step st p false false st.comment n = .go false := by
    intro n; unfold step; rw [if_neg]
    rintro ⟨h, h', _⟩
    exact (hs.quote h).2.2.1 ((ceq_iff _ _ hs.small.2.1).1 h').symm
  have hd := ceq_false (Ne.symm hs.diff.1)
  have hcc : ceq st.comment st.comment = true := (ceq_iff _ _ hs.small.2.2.2.1).2 rfl
  cases rest with
  | nil => unfold walk; rw [hst]; simp [hd]
  | cons d' r =>
    conv => lhs; unfold walk
    rw [hst]; simp [hd, hcc, hs.zero.2.1]

/-- The end of a line. -/
theorem walk_end (rest : List UInt8) (z : Bool) (p : Option UInt8) (onc : Bool) (cur : List UInt8) :
    walk st z (st.delim :: rest) p false onc cur = cur :: walk st z rest (some (if z then 0 else st.delim)) false false [] := by
  have hst : ∀ n, step st p false onc st.delim n = .go false := by
    intro n; unfold step; rw [if_neg]
    rintro ⟨h, h', _⟩
    exact (hs.quote h).2.1 ((ceq_iff _ _ hs.small.2.1).1 h').symm
  have hdd : ceq st.delim st.delim = true := (ceq_iff _ _ hs.small.1).2 rfl
  cases rest with
  | nil => unfold walk; rw [hst]; simp [hdd, walk]
  | cons d' r =>
    conv => lhs; unfold walk
    rw [hst]; simp [hdd]

theorem cutL_false {c : UInt8} (h1 : c ≠ st.delim) (h2 : c ≠ st.comment) : cutL st c = false := by
  simp [cutL, ceq_false h1, ceq_false h2]

/-- The comment at the end of a line. -/
theorem walk_tail {c : Option Tail} (hc : ∀ t ∈ c, t.good st) {w : List UInt8} (hw : Spaces st w) (rest : List UInt8) (hr : rest = [] ∨ rest.head? = some st.delim) (z : Bool) (p : Option UInt8) (cur : List UInt8) :
    ∃ p' onc, walk st z (tailText st c ++ w ++ rest) p false false cur = walk st z rest p' false onc (cur ++ tailText st c ++ w) := by
  have sp : ∀ {w : List UInt8}, Spaces st w → ∀ n p, Seg st.quote st.escape (cutL st) n w p false (w.getLast?.or p) false := fun {w} hw n p =>
    seg_clean hs n w (fun c hc => ⟨cutL_false hs (Spaces.other hs hw c hc).1 (Spaces.other hs hw c hc).2.1, (Spaces.other hs hw c hc).2.2.2.1⟩) p
  cases c with
  | none =>
    simp only [tailText, List.nil_append, List.append_nil]
    exact ⟨_, false, walk_seg hs (sp hw _ p) rfl z cur⟩
  | some t =>
    obtain ⟨h1, h2, h3, h4, h5⟩ := hc t rfl
    have e1 : tailText st (some t) ++ w ++ rest = t.before ++ (st.comment :: ((t.after ++ t.text ++ w) ++ rest)) := by simp [tailText]
    rw [e1, walk_seg hs (sp h1 _ p) rfl z cur, walk_mark hs, walk_comment hs]
    · exact ⟨_, true, congrArg (walk st z rest _ false true) (by simp [tailText])⟩
    · intro c hc
      simp only [List.mem_append] at hc
      rcases hc with (h | h) | h
      · exact (h2 c h).2
      · exact h4 c h
      · exact (hw c h).2

/-- The loops go over a line. -/
theorem walk_text {l : Line} (hl : l.good st) (rest : List UInt8) (hr : rest = [] ∨ rest.head? = some st.delim) (z : Bool) (p : Option UInt8) :
    ∃ p' onc, walk st z (l.text st ++ rest) p false false [] = walk st z rest p' false onc (l.text st) := by
  obtain ⟨hl1, hl2, hg⟩ := hl
  have sp : ∀ {w : List UInt8}, Spaces st w → ∀ n p, Seg st.quote st.escape (cutL st) n w p false (w.getLast?.or p) false := fun {w} hw n p =>
    seg_clean hs n w (fun c hc => ⟨cutL_false hs (Spaces.other hs hw c hc).1 (Spaces.other hs hw c hc).2.1, (Spaces.other hs hw c hc).2.2.2.1⟩) p
  have cl : ∀ {w : List UInt8}, Clean st w → ∀ n p, Seg st.quote st.escape (cutL st) n w p false (w.getLast?.or p) false := fun {w} hw n p =>
    seg_clean hs n w (fun c hc => ⟨cutL_false hs (hw c hc).1 (hw c hc).2.1, (hw c hc).2.2.1⟩) p
  have one : ∀ {x : UInt8}, x ≠ st.delim → x ≠ st.comment → (st.quote ≠ 0 → x ≠ st.quote) → ∀ n p, Seg st.quote st.escape (cutL st) n [x] p false (some x) false := fun {x} h1 h2 h3 n p =>
    seg_clean hs n [x] (fun c hc => by rw [List.mem_singleton.1 hc]; exact ⟨cutL_false hs h1 h2, h3⟩) p
  unfold Line.text
  cases hc : l.core with
  | blank =>
    have e : l.left ++ Core.text st .blank ++ l.right ++ rest = l.left ++ l.right ++ rest := by simp [Core.text]
    rw [e]
    have sg := (sp hl1 _ p).append rfl (sp hl2 (rest.headD 0) _)
    rw [walk_seg hs sg rfl]
    exact ⟨_, false, congrArg (walk st z rest _ false false) (by simp [Core.text])⟩
  | comment t =>
    rw [hc] at hg
    have e : l.left ++ Core.text st (.comment t) ++ l.right ++ rest = l.left ++ (st.comment :: ((t ++ l.right) ++ rest)) := by simp [Core.text]
    rw [e, walk_seg hs (sp hl1 _ p) rfl, walk_mark hs, walk_comment hs]
    · exact ⟨_, true, congrArg (walk st z rest _ false true) (by simp [Core.text])⟩
    · intro c hc
      rcases List.mem_append.1 hc with h | h
      · exact hg.1 c h
      · exact (hl2 c h).2
  | sect a name b c =>
    rw [hc] at hg
    obtain ⟨g1, g2, g3, g4, g5, g6⟩ := hg
    have h91 := hs.bracket 91 (by simp)
    have h93 := hs.bracket 93 (by simp)
    have e : l.left ++ Core.text st (.sect a name b c) ++ l.right ++ rest = (l.left ++ [91] ++ a ++ name ++ b ++ [93]) ++ (tailText st c ++ l.right ++ rest) := by simp [Core.text]
    have sg := (((((sp hl1 _ p).append rfl (one (Ne.symm h91.1) (Ne.symm h91.2.1) (fun _ => Ne.symm h91.2.2) _ _)).append rfl (sp g1 _ _)).append rfl (cl g4 _ _)).append rfl (sp g2 _ _)).append rfl
      (one (Ne.symm h93.1) (Ne.symm h93.2.1) (fun _ => Ne.symm h93.2.2) ((tailText st c ++ l.right ++ rest).headD 0) _)
    rw [e, walk_seg hs sg rfl]
    obtain ⟨p', onc, e2⟩ := walk_tail hs g6 hl2 rest hr z (some 93) ([] ++ (l.left ++ [91] ++ a ++ name ++ b ++ [93]))
    exact ⟨p', onc, by rw [e2]; simp [Core.text]⟩
  | key k c =>
    rw [hc] at hg
    obtain ⟨h0, h1, h2, h3, h4, h5⟩ := hg
    have e : l.left ++ Core.text st (.key k c) ++ l.right ++ rest = (l.left ++ k) ++ (tailText st c ++ l.right ++ rest) := by simp [Core.text]
    have sg := (sp hl1 _ p).append rfl (cl h2 ((tailText st c ++ l.right ++ rest).headD 0) _)
    rw [e, walk_seg hs sg rfl]
    obtain ⟨p', onc, e2⟩ := walk_tail hs h5 hl2 rest hr z (k.getLast?.or (l.left.getLast?.or p)) ([] ++ (l.left ++ k))
    exact ⟨p', onc, by rw [e2]; simp [Core.text]⟩
  | pair k a b v c =>
    rw [hc] at hg
    obtain ⟨h0, h1, h2, h3, h4, h5, h6, h7, h8, h9⟩ := hg
    have e : l.left ++ Core.text st (.pair k a b v c) ++ l.right ++ rest = ((l.left ++ k ++ a ++ [st.kv]) ++ (b ++ v.text st ++ [])) ++ (tailText st c ++ l.right ++ rest) := by simp [Core.text]
    have hn : st.quote ≠ 0 → (tailText st c ++ l.right ++ rest).headD 0 ≠ st.quote := by
      intro hq
      have hsp : ∀ {w r : List UInt8}, Spaces st w → r.headD 0 ≠ st.quote → (w ++ r).headD 0 ≠ st.quote := by
        intro w r hw h
        cases w with
        | nil => exact h
        | cons x w => exact (Spaces.other hs hw x (by simp)).2.2.2.1 hq
      cases c with
      | none =>
        simp only [tailText, List.nil_append]
        refine hsp hl2 ?_
        rcases hr with rfl | h
        · exact Ne.symm hq
        · cases rest with
          | nil => simp at h
          | cons x r => simp at h; rw [List.headD_cons, h]; exact (hs.quote hq).2.1.symm
      | some t =>
        have e3 : tailText st (some t) ++ l.right ++ rest = t.before ++ (st.comment :: (t.after ++ t.text ++ l.right ++ rest)) := by simp [tailText]
        rw [e3]
        exact hsp (h9 t rfl).1 (hs.quote hq).2.2.1.symm
    have hcut : ∀ c, cutL st c = true → c = st.delim ∨ c = st.comment := by
      intro c h
      simp only [cutL, Bool.or_eq_true] at h
      exact h.imp (ceq_iff _ _ hs.small.1).1 (ceq_iff _ _ hs.small.2.2.2.1).1
    obtain ⟨pv, sv⟩ := seg_val (cut := cutL st) hs hcut h6 (b := []) (by simp [Spaces]) h7 ((tailText st c ++ l.right ++ rest).headD 0) hn (some st.kv)
      (fun hq => by simp [ceq_false (hs.escape hq).2.2.2.2.symm])
    have sg := (((((sp hl1 _ p).append rfl (cl h2 _ _)).append rfl (sp h5 _ _)).append rfl (one (Ne.symm hs.diff.2.1) (Ne.symm hs.diff.2.2.1) (fun hq => (hs.quote hq).2.2.2.symm) _ _))).append rfl sv
    rw [e, walk_seg hs sg rfl]
    obtain ⟨p', onc, e2⟩ := walk_tail hs h9 hl2 rest hr z pv ([] ++ (l.left ++ k ++ a ++ [st.kv] ++ (b ++ v.text st ++ [])))
    exact ⟨p', onc, by rw [e2]; simp [Core.text]⟩

/-- The lines of a file. -/
def linesOf (st : Settings) (ls : List Line) (last : Option Line) : List Line := ls ++ (last.filter fun l => decide (l.text st ≠ [])).toList

omit hs in
theorem linesOf_cons (l : Line) (ls : List Line) (last : Option Line) : linesOf st (l :: ls) last = l :: linesOf st ls last := rfl

theorem walk_file (ls : List Line) (last : Option Line) (hl : ∀ l ∈ ls, l.good st) (hz : ∀ l ∈ last, l.good st) (z : Bool) (p : Option UInt8) :
    walk st z (fileText st ls last) p false false [] = (linesOf st ls last).map (·.text st) := by
  induction ls generalizing p with
  | nil =>
    cases last with
    | none => simp [fileText, linesOf, walk]
    | some l =>
      obtain ⟨p', onc, e⟩ := walk_text hs (hz l rfl) [] (.inl rfl) z p
      simp only [fileText, List.flatMap_nil, Option.map_some, Option.getD_some, List.nil_append, linesOf]
      rw [List.append_nil] at e
      rw [e, walk]
      by_cases h : l.text st = []
      · simp [h]
      · simp [h, Option.filter]
  | cons l ls ih =>
    have e1 : fileText st (l :: ls) last = l.text st ++ (st.delim :: fileText st ls last) := by simp [fileText]
    obtain ⟨p', onc, e⟩ := walk_text hs (hl l (by simp)) (st.delim :: fileText st ls last) (.inr rfl) z p
    rw [e1, e, walk_end hs, ih (fun l h => hl l (by simp [h])), linesOf_cons, List.map_cons]

/-- A file of lines is split into them. -/
theorem explode_file (ls : List Line) (last : Option Line) (hl : ∀ l ∈ ls, l.good st) (hz : ∀ l ∈ last, l.good st) :
    explode st (fileText st ls last) = some ((linesOf st ls last).map (·.text st)) := by
  unfold explode
  by_cases h : fileText st ls last = []
  · rw [if_pos h]
    have := walk_file hs ls last hl hz true none
    rw [h] at this
    rw [← this]; simp [walk]
  · rw [if_neg h, walk_file hs ls last hl hz, walk_file hs ls last hl hz, if_pos rfl]

end

/-! ## What the lines leave behind -/

/-- The name of a key in a section. -/
def path : Option (List UInt8) → List UInt8 → List UInt8
  | none, k => k
  | some s, k => s ++ 47 :: k

/-- The call that a line with a key stands for. -/
def put (collect : Bool) (k : List UInt8) (v : Option (List UInt8)) : Op := if collect then .insert k v else .set k v

/-- The calls that a file stands for. -/
def calls (collect : Bool) : Option (List UInt8) → List Line → List Op
  | _, [] => []
  | sec, l :: ls =>
    match l.core with
    | .sect _ n _ _ => calls collect (some n) ls
    | .key k _ => put collect (path sec k) none :: calls collect sec ls
    | .pair k _ _ v _ => put collect (path sec k) (some v.meant) :: calls collect sec ls
    | .blank | .comment _ => calls collect sec ls

/-- No two blanks next to each other. -/
def Spread (k : List UInt8) : Prop := ∀ a c d b, k = a ++ c :: d :: b → ¬ (Blank c ∧ Blank d)

/-- Names that mean the same to the reader as to the one who asks. -/
def Core.named (ign : Bool) : Core → Prop
  | .sect _ n _ _ => ign = true → Spread n
  | .key k _ | .pair k _ _ _ _ => 47 ∉ k ∧ nameOf ign k ≠ [] ∧ (ign = true → Spread k)
  | .blank | .comment _ => True

theorem After.of {ign : Bool} {ops : List Op} {a b : Ini} (h : After ign ops a) (h1 : b.ign = a.ign) (h2 : b.kvs = a.kvs) : After ign ops b := ⟨h1.trans h.flag, h2 ▸ h.kvs⟩

theorem intKey_spread {ign : Bool} {k : List UInt8} (h : ign = true → Spread k) : intKey ign k = nameOf ign k := by
  cases ign with
  | false => rfl
  | true => exact deleteWs_plain k.length k (Nat.le_refl _) (h rfl)

theorem nameOf_noBlank (k : List UInt8) : ∀ c ∈ nameOf true k, ¬ Blank c := by
  intro c hc
  simp only [nameOf, if_true, List.mem_filter, decide_eq_true_eq] at hc
  exact hc.2

theorem nameOf_app (ign : Bool) (a b : List UInt8) : nameOf ign (a ++ b) = nameOf ign a ++ nameOf ign b := by
  cases ign <;> simp [nameOf]

theorem nameOf_sl (ign : Bool) (b : List UInt8) : nameOf ign (47 :: b) = 47 :: nameOf ign b := by
  cases ign with
  | false => rfl
  | true => simp only [nameOf, if_true]; rw [List.filter_cons, if_pos (by decide)]

theorem nameOf_nameOf (ign : Bool) (b : List UInt8) : nameOf ign (nameOf ign b) = nameOf ign b := by
  cases ign <;> simp [nameOf]

/-- The name of a path. -/
theorem nameOf_path (ign : Bool) (sec : Option (List UInt8)) (k : List UInt8) : nameOf ign (path sec k) = path (sec.map (nameOf ign)) (nameOf ign k) := by
  cases sec with
  | none => rfl
  | some s => simp only [path, Option.map_some, nameOf_app, nameOf_sl]

theorem path_last {sec : Option (List UInt8)} {k : List UInt8} (hk : k ≠ []) : (path sec k).getLast? = k.getLast? := by
  cases sec with
  | none => rfl
  | some s =>
    simp only [path]
    rw [List.getLast?_append, List.getLast?_cons]
    cases h : k.getLast? with
    | none => exact absurd (List.getLast?_eq_none_iff.1 h) hk
    | some x => rfl

theorem path_valid {sec : Option (List UInt8)} {k : List UInt8} (hk : k ≠ []) (h : 47 ∉ k) : Valid (path sec k) := by
  refine ⟨?_, ?_⟩
  · intro e
    have := path_last (sec := sec) hk
    rw [e] at this
    exact hk (List.getLast?_eq_none_iff.1 this.symm)
  · rw [path_last hk]
    intro e
    exact h (List.mem_of_getLast? e)

theorem fullKey_path (sec : Option (List UInt8)) (k : List UInt8) : fullKey sec k = path sec k := by
  cases sec <;> simp [fullKey, path]

theorem nameOf_sub {ign : Bool} {k : List UInt8} {c : UInt8} (h : c ∈ nameOf ign k) : c ∈ k := by
  cases ign with
  | false => exact h
  | true => simp only [nameOf, if_true, List.mem_filter] at h; exact h.1

/-- A reduced path is found under the path. -/
theorem plain_reduced {ign : Bool} {sec : Option (List UInt8)} {k : List UInt8} (h : 47 ∉ k) (hk : nameOf ign k ≠ []) : Plain ign (path (sec.map (nameOf ign)) (nameOf ign k)) := by
  rintro rfl
  have e : nameOf true (path (sec.map (nameOf true)) (nameOf true k)) = path (sec.map (nameOf true)) (nameOf true k) := by
    rw [← nameOf_path, nameOf_nameOf]
  refine ⟨?_, fun _ => ?_⟩
  · intro a c d b e' hb
    have hc : c ∈ nameOf true (path sec k) := by rw [nameOf_path, e']; simp
    exact nameOf_noBlank _ c hc hb.1
  · rw [e]
    exact path_valid hk (fun hm => h (nameOf_sub hm))

theorem after_congr {ign : Bool} {ops : List Op} {o o' : Op} {ini : Ini} (hv : Valid o.key ↔ Valid o'.key) (hn : nameOf ign o.key = nameOf ign o'.key)
    (hc : ∀ vs, o.change vs = o'.change vs) (hm : ∀ ns, o.names ign ns = o'.names ign ns) (h : After ign (ops ++ [o]) ini) : After ign (ops ++ [o']) ini := by
  refine ⟨h.flag, ?_⟩
  have e1 : names ign (ops ++ [o']) = names ign (ops ++ [o]) := by
    rw [names_snoc, names_snoc]
    by_cases hx : Valid o.key
    · rw [if_pos hx, if_pos (hv.1 hx), hm]
    · rw [if_neg hx, if_neg (fun y => hx (hv.2 y))]
  rw [e1]
  refine h.kvs.congr fun n => ?_
  rw [vals_snoc, vals_snoc, ← hn, ← hc]
  by_cases hx : Valid o.key ∧ Same (nameOf ign o.key) n
  · rw [if_pos hx, if_pos ⟨hv.1 hx.1, hx.2⟩]
  · rw [if_neg hx, if_neg (fun y => hx ⟨hv.2 y.1, y.2⟩)]

theorem after_put {ign : Bool} {ops : List Op} {ini : Ini} (h : After ign ops ini) (collect : Bool) (sec : Option (List UInt8)) {k : List UInt8} (v : Option (List UInt8)) (h1 : 47 ∉ k)
    (h2 : nameOf ign k ≠ []) :
    After ign (ops ++ [put collect (path sec k) v]) (exec ini (put collect (path (sec.map (nameOf ign)) (nameOf ign k)) v)).2 := by
  have hk : k ≠ [] := by
    rintro rfl
    cases ign <;> exact h2 rfl
  have hv1 : Valid (path sec k) := path_valid hk h1
  have hv2 : Valid (path (sec.map (nameOf ign)) (nameOf ign k)) := path_valid h2 (fun hm => h1 (nameOf_sub hm))
  have hn : nameOf ign (path (sec.map (nameOf ign)) (nameOf ign k)) = nameOf ign (path sec k) := by
    rw [← nameOf_path, nameOf_nameOf]
  cases collect with
  | true =>
    refine after_congr (o := .insert _ v) (o' := .insert _ v) ⟨fun _ => hv1, fun _ => hv2⟩ hn (fun _ => rfl) (fun ns => ?_) (exec_after h (.insert _ v) (plain_reduced h1 h2)).2
    exact congrArg (addName ns) hn
  | false =>
    refine after_congr (o := .set _ v) (o' := .set _ v) ⟨fun _ => hv1, fun _ => hv2⟩ hn (fun _ => rfl) (fun ns => ?_) (exec_after h (.set _ v) (plain_reduced h1 h2)).2
    exact congrArg (addName ns) hn

theorem setElems_kvs (ini : Ini) (w : Where) (es : List Elem) : (setElems ini w es).kvs = ini.kvs ∧ (setElems ini w es).ign = ini.ign := by
  cases w <;> exact ⟨rfl, rfl⟩

theorem secInsert_kvs (ini : Ini) (n : List UInt8) : (secInsert ini n).kvs = ini.kvs ∧ (secInsert ini n).ign = ini.ign := by
  unfold secInsert
  split
  · exact ⟨rfl, rfl⟩
  · split <;> exact ⟨rfl, rfl⟩

theorem handleSection_kvs (ini : Ini) (a b : List UInt8) (c : Option (List UInt8)) : (handleSection ini a b c).kvs = ini.kvs ∧ (handleSection ini a b c).ign = ini.ign := by
  unfold handleSection
  split
  · exact ⟨rfl, rfl⟩
  · exact secInsert_kvs ini b

theorem markDup_kvs (st : Settings) (ini : Ini) (w : Where) (ik : List UInt8) (b : Bool) : (markDup st ini w ik b).kvs = ini.kvs ∧ (markDup st ini w ik b).ign = ini.ign := by
  unfold markDup
  split
  · exact setElems_kvs _ _ _
  · exact ⟨rfl, rfl⟩

theorem handleKv_after {st : Settings} {ign : Bool} {ops : List Op} {ini : Ini} (h : After ign ops ini) (sec : Option (List UInt8)) (w : Where) {k : List UInt8} (v c : Option (List UInt8)) (h1 : 47 ∉ k)
    (h2 : nameOf ign k ≠ []) (h3 : ign = true → Spread k) :
    After ign (ops ++ [put (decide (st.dup = .collect)) (path sec k) v]) (handleKv st ini (sec.map (nameOf ign)) w k v c).1 := by
  unfold handleKv
  have ef : fullKey (sec.map (nameOf ign)) (intKey ini.ign k) = path (sec.map (nameOf ign)) (nameOf ign k) := by rw [fullKey_path, h.flag, intKey_spread h3]
  simp only [ef]
  generalize hi2 : markDup st _ w _ _ = i2
  have hk : i2.kvs = ini.kvs ∧ i2.ign = ini.ign := by
    rw [← hi2]
    exact markDup_kvs st _ w _ _
  have := after_put (h.of hk.2 hk.1) (decide (st.dup = .collect)) sec v h1 h2
  by_cases hd : st.dup = .collect
  · simp only [hd, decide_true, if_true] at this ⊢
    exact this
  · simp only [hd, decide_false, if_false] at this ⊢
    exact this

/-- One line of a file. -/
theorem readElem_after {st : Settings} {ign : Bool} {ops : List Op} {r : RState} {sec : Option (List UInt8)} (h : After ign ops r.ini) (hr : r.sec = sec.map (nameOf ign)) (l : Line)
    (hn : l.core.named ign) (ls : List Line) :
    ∃ ops' sec', After ign ops' (readElem st r l.core.elem).ini ∧ (readElem st r l.core.elem).sec = sec'.map (nameOf ign) ∧
      ops' ++ calls (decide (st.dup = .collect)) sec' ls = ops ++ calls (decide (st.dup = .collect)) sec (l :: ls) := by
  cases hc : l.core with
  | blank =>
    refine ⟨ops, sec, h.of (setElems_kvs _ _ _).2 (setElems_kvs _ _ _).1, hr, ?_⟩
    simp [calls, hc]
  | comment t =>
    refine ⟨ops, sec, h.of (setElems_kvs _ _ _).2 (setElems_kvs _ _ _).1, hr, ?_⟩
    simp [calls, hc]
  | sect a n b c =>
    rw [hc] at hn
    refine ⟨ops, some n, h.of (handleSection_kvs _ _ _ _).2 (handleSection_kvs _ _ _ _).1, ?_, by simp [calls, hc]⟩
    show some (intKey r.ini.ign n) = _
    rw [h.flag, intKey_spread hn]; rfl
  | key k c =>
    rw [hc] at hn
    have hh := handleKv_after (st := st) h sec r.wh none (c.map fun t => t.after ++ t.text) hn.1 hn.2.1 hn.2.2
    rw [← hr] at hh
    refine ⟨_, sec, (?_ : After ign (ops ++ [put (decide (st.dup = .collect)) (path sec k) none]) _), ?_, by simp [calls, hc]⟩
    · simp only [Core.elem, readElem]
      split
      · exact hh.of (setElems_kvs _ _ _).2 (setElems_kvs _ _ _).1
      · exact hh
    · simp only [Core.elem, readElem]
      split <;> exact hr
  | pair k a b v c =>
    rw [hc] at hn
    have hh := handleKv_after (st := st) h sec r.wh (some v.meant) (c.map (·.text)) hn.1 hn.2.1 hn.2.2
    rw [← hr] at hh
    refine ⟨_, sec, (?_ : After ign (ops ++ [put (decide (st.dup = .collect)) (path sec k) (some v.meant)]) _), ?_, by simp [calls, hc]⟩
    · simp only [Core.elem, readElem]
      split
      · exact hh.of (setElems_kvs _ _ _).2 (setElems_kvs _ _ _).1
      · exact hh
    · simp only [Core.elem, readElem]
      split <;> exact hr

theorem readLines_after {st : Settings} (hs : Sane st) {ign : Bool} (ls : List Line) (hl : ∀ l ∈ ls, l.good st) (hn : ∀ l ∈ ls, l.core.named ign) {ops : List Op} {r : RState}
    {sec : Option (List UInt8)} (h : After ign ops r.ini) (hr : r.sec = sec.map (nameOf ign)) :
    ∃ r', readLines st (ls.map (·.text st)) r = some (some r') ∧ After ign (ops ++ calls (decide (st.dup = .collect)) sec ls) r'.ini := by
  induction ls generalizing ops r sec with
  | nil => exact ⟨r, rfl, by simpa [calls] using h⟩
  | cons l ls ih =>
    simp only [List.map_cons, readLines]
    rw [parseLine_text hs (hl l (by simp))]
    obtain ⟨ops', sec', a1, a2, a3⟩ := readElem_after (st := st) h hr l (hn l (by simp)) ls
    obtain ⟨r', e1, e2⟩ := ih (fun l h => hl l (by simp [h])) (fun l h => hn l (by simp [h])) a1 a2
    exact ⟨r', e1, by rw [← a3]; exact e2⟩

end Verif.Ini
