import Verif.Lemmas.Sweep.Queued

/-! A sweep over other containers does what the model does. -/

set_option linter.unusedSectionVars false

namespace Orient

variable {K Q S : Type} [Field K] [LinearOrder K] [IsStrictOrderedRing K]

open Segment State eventsQueue

theorem StrictOn.mono {α : Type} {lt : α → α → Bool} {l l' : List α} (h : StrictOn lt l)
    (hs : ∀ a ∈ l', a ∈ l) : StrictOn lt l' :=
  ⟨fun a ha b hb => h.total a (hs a ha) b (hs b hb),
    fun a ha b hb c hc => h.trans a (hs a ha) b (hs b hb) c (hs c hc)⟩

theorem not_clash_divide {s : State K} (hw : s.WF) (hcl : ¬ Clash s) {i : Nat} (hi : i < s.nextLeft)
    {p : Point K} (hp : (s.seg i).Inner p) : ¬ Clash (s.divide i p) := fun h =>
  hcl (((Refines.refl s).divide hw hi hp).clash (divide_wf hw hi p hp) h)

theorem not_clash_shape {s t : State K} (hw : s.WF) (hcl : ¬ Clash s) (h : SameShape s t) :
    ¬ Clash t := fun h' =>
  hcl (((Refines.refl s).shape h).clash (h.wf hw) h')

theorem not_clash_elems {s t : State K} (hw : s.WF) (hcl : ¬ Clash s) (h : Elems s t) :
    ¬ Clash t := fun h' => by
  obtain ⟨o, ho⟩ := h.runs.refines hw
  exact hcl (ho.clash (h.wf hw) h')

namespace Machine

/-- The queue of the machine holds the queued events, ordered by the comparison in the state. -/
structure Good (items : Q → List Ev) (ordered : (Ev → Ev → Bool) → Q → Prop) (context : Context K)
    (m : Machine K Q) : Prop where
  perm : (items m.queue).Perm m.state.queue
  ordered : ordered (keyLt context m.state) m.queue

section

variable {H : PriorityQueue Q} {items : Q → List Ev} {ordered : (Ev → Ev → Bool) → Q → Prop}
  {context : Context K}

theorem Good.empty (hH : H.Correct items ordered) :
    (Machine.empty H : Machine K Q).Good items ordered context :=
  ⟨by rw [Machine.empty, hH.empty.1]; exact .refl _, hH.empty.2 _⟩

theorem Good.congr (hH : H.Correct items ordered) {m : Machine K Q}
    (h : m.Good items ordered context) {t : State K} (hq : t.queue = m.state.queue)
    (hk : ∀ a ∈ m.state.queue, ∀ b ∈ m.state.queue,
      keyLt context t a b = keyLt context m.state a b) :
    (⟨t, m.queue⟩ : Machine K Q).Good items ordered context :=
  ⟨by rw [hq]; exact h.perm, hH.congr _ _ _ h.ordered fun a ha b hb _ =>
    hk a (h.perm.mem_iff.mp ha) b (h.perm.mem_iff.mp hb)⟩

theorem Good.shape (hH : H.Correct items ordered) {m : Machine K Q}
    (h : m.Good items ordered context) {t : State K} (ht : SameShape m.state t) :
    (⟨t, m.queue⟩ : Machine K Q).Good items ordered context :=
  h.congr hH ht.queue fun a _ b _ => keyLt_shape ht a b

/-- Two events are pushed after the state has been changed. -/
theorem Good.pushes (hH : H.Correct items ordered) (hc : context.Exact) {m : Machine K Q}
    (h : m.Good items ordered context) {t : State K} (hw : t.WF) (hcl : ¬ Clash t) {a b : Ev}
    (hq : t.queue = b :: a :: m.state.queue)
    (hk : ∀ a ∈ m.state.queue, ∀ b ∈ m.state.queue,
      keyLt context t a b = keyLt context m.state a b) :
    (((⟨t, m.queue⟩ : Machine K Q).push H context a).push H context b).Good items ordered context := by
  have o0 : ordered (keyLt context t) m.queue := hH.congr _ _ _ h.ordered fun a ha b hb _ =>
    hk a (h.perm.mem_iff.mp ha) b (h.perm.mem_iff.mp hb)
  have strict : StrictOn (keyLt context t) t.queue := strictOn hc hw hcl fun e he =>
    hw.valid_of_mem he
  have nodup := hw.nodup
  rw [hq] at strict nodup
  have p1 : (a :: items m.queue).Perm (a :: m.state.queue) := h.perm.cons a
  obtain ⟨i1, o1⟩ := hH.push (keyLt context t) m.queue a o0
    (p1.nodup_iff.mpr (List.nodup_cons.mp nodup).2)
    (strict.mono fun x hx => List.mem_cons_of_mem _ (p1.mem_iff.mp hx))
  have p2 : (b :: items (H.push (keyLt context t) a m.queue)).Perm (b :: a :: m.state.queue) :=
    (i1.trans p1).cons b
  obtain ⟨i2, o2⟩ := hH.push (keyLt context t) (H.push (keyLt context t) a m.queue) b o1
    (p2.nodup_iff.mpr nodup) (strict.mono fun x hx => p2.mem_iff.mp hx)
  refine ⟨?_, o2⟩
  change (items _).Perm t.queue
  rw [hq]
  exact i2.trans p2

theorem divide_state (m : Machine K Q) (i : Nat) (p : Point K) :
    (m.divide H context i p).state = m.state.divide i p := rfl

theorem Good.divide (hH : H.Correct items ordered) (hc : context.Exact) {m : Machine K Q}
    (h : m.Good items ordered context) (hw : m.state.WF) (hcl : ¬ Clash m.state) {i : Nat}
    (hi : i < m.state.nextLeft) {p : Point K} (hp : (m.state.seg i).Inner p) :
    (m.divide H context i p).Good items ordered context :=
  h.pushes hH hc (divide_wf hw hi p hp) (not_clash_divide hw hcl hi hp) rfl fun _ ha _ hb =>
    keyLt_divide hc hw hi hp (hw.valid_of_mem ha) (hw.valid_of_mem hb)

theorem registerOne_state (m : Machine K Q) (b : Bool) (e : SegmentEndpoints K) :
    (m.registerOne H context b e).state = m.state.registerOne b e := rfl

theorem register_state (m : Machine K Q) (b : Bool) (l : List (SegmentEndpoints K)) :
    (m.register H context b l).state = m.state.register b l := by
  unfold Machine.register State.register
  induction l generalizing m with
  | nil => rfl
  | cons e l ih => rw [List.foldl_cons, List.foldl_cons, ih, registerOne_state]

theorem keyLt_registerOne {s : State K} (hw : s.WF) (b : Bool) (e : SegmentEndpoints K) {x y : Ev}
    (hx : s.Valid x) (hy : s.Valid y) :
    keyLt context (s.registerOne b e) x y = keyLt context s x y := by
  have lefts : ∀ i < s.nextLeft, (s.registerOne b e).lefts i = s.lefts i := fun i hi => by
    simp [State.registerOne, hi.ne]
  have rights : ∀ i < s.nextRight, (s.registerOne b e).rights i = s.rights i := fun i hi => by
    simp [State.registerOne, hi.ne]
  have key : ∀ x, s.Valid x → (s.registerOne b e).evStart x = s.evStart x ∧
      (s.registerOne b e).evEnd x = s.evEnd x ∧
      (s.registerOne b e).evFromTest x = s.evFromTest x := by
    intro x hx
    cases x with
    | left i =>
      simp only [State.evStart, State.evEnd, State.evFromTest, State.leftOf, State.leftEnd,
        lefts i hx, rights _ (hw.leftRight i hx).1, and_self]
    | right r =>
      simp only [State.evStart, State.evEnd, State.evFromTest, State.leftOf, rights r hx,
        lefts _ (hw.rightLeft r hx).1, and_self]
  obtain ⟨x1, x2, x3⟩ := key x hx
  obtain ⟨y1, y2, y3⟩ := key y hy
  unfold keyLt
  rw [x1, x2, y1, y2, y3]

theorem Good.registerOne (hH : H.Correct items ordered) (hc : context.Exact) {m : Machine K Q}
    (h : m.Good items ordered context) (hf : m.state.Fresh) {b : Bool} {e : SegmentEndpoints K}
    (he : e.1 ≠ e.2) (hcl : ¬ Clash (m.state.registerOne b e)) :
    (m.registerOne H context b e).Good items ordered context :=
  h.pushes hH hc (hf.registerOne b he).wf hcl rfl fun _ ha _ hb =>
    keyLt_registerOne hf.wf b e (hf.wf.valid_of_mem ha) (hf.wf.valid_of_mem hb)

theorem clash_register_mono {s : State K} (hf : s.Fresh) {b : Bool} {l : List (SegmentEndpoints K)}
    (hl : ∀ e ∈ l, e.1 ≠ e.2) (hcl : Clash s) : Clash (s.register b l) := by
  rw [State.clash_iff] at hcl ⊢
  obtain ⟨b', h⟩ := hcl
  refine ⟨b', fun h' => h ?_⟩
  rw [hf.segs_register b hl, List.pairwise_append] at h'
  exact h'.1

theorem Good.register (hH : H.Correct items ordered) (hc : context.Exact) {m : Machine K Q}
    (h : m.Good items ordered context) (hf : m.state.Fresh) {b : Bool}
    {l : List (SegmentEndpoints K)} (hl : ∀ e ∈ l, e.1 ≠ e.2)
    (hcl : ¬ Clash (m.state.register b l)) :
    (m.register H context b l).Good items ordered context := by
  unfold Machine.register
  induction l generalizing m with
  | nil => exact h
  | cons e l ih =>
    have he := hl e (by simp)
    have hl' : ∀ e ∈ l, e.1 ≠ e.2 := fun x hx => hl x (by simp [hx])
    have hf' : (m.registerOne H context b e).state.Fresh := hf.registerOne b he
    have hcl' : ¬ Clash ((m.registerOne H context b e).state.register b l) := hcl
    exact ih (h.registerOne hH hc hf he fun hn => hcl' (clash_register_mono hf' hl' hn)) hf' hl' hcl'

/-! ### intersections -/

/-- The divisions made for overlapping segments `x`, `y`, of which `x` comes first. -/
inductive OverlapSteps (H : PriorityQueue Q) (context : Context K) (m : Machine K Q) (x y : Nat) :
    Machine K Q → Prop
  | same : OverlapSteps H context m x y m
  | «prefix» (h0 : (m.state.lefts x).start = (m.state.lefts y).start)
      (h1 : m.state.leftEnd x < m.state.leftEnd y) :
      OverlapSteps H context m x y (m.divide H context y (m.state.leftEnd x))
  | «suffix» (h0 : (m.state.lefts x).start < (m.state.lefts y).start)
      (h1 : m.state.leftEnd x = m.state.leftEnd y) :
      OverlapSteps H context m x y (m.divide H context x (m.state.lefts y).start)
  | inside (h0 : (m.state.lefts x).start < (m.state.lefts y).start)
      (h1 : m.state.leftEnd y < m.state.leftEnd x) :
      OverlapSteps H context m x y ((m.divide H context x (m.state.leftEnd y)).divide H context x
        (m.state.lefts y).start)
  | shifted (h0 : (m.state.lefts x).start < (m.state.lefts y).start)
      (h1 : m.state.leftEnd x < m.state.leftEnd y) :
      OverlapSteps H context m x y ((m.divide H context y (m.state.leftEnd x)).divide H context x
        (m.state.lefts y).start)

theorem divideOverlapping_state (m : Machine K Q) (a b : Nat) :
    (m.divideOverlapping H context a b).state = eventsQueue.divideOverlapping context m.state a b := by
  unfold Machine.divideOverlapping eventsQueue.divideOverlapping
  simp only
  split_ifs <;> rfl

theorem divideAt_state (m : Machine K Q) (a b : Nat) (p : Point K) :
    (m.divideAt H context a b p).state = eventsQueue.divideAt m.state a b p := by
  unfold Machine.divideAt eventsQueue.divideAt
  simp only
  by_cases h : p ≠ (m.state.lefts a).start ∧ p ≠ m.state.leftEnd a
  · simp only [if_pos h, divide_state]
    split_ifs <;> rfl
  · simp only [if_neg h]
    split_ifs <;> rfl

theorem divideOverlapping_steps (H : PriorityQueue Q) (context : Context K) {m : Machine K Q}
    (h : m.state.WF) {a b : Nat} (ha : a < m.state.nextLeft) (hb : b < m.state.nextLeft)
    (hab : a ≠ b) :
    OverlapSteps H context m a b (m.divideOverlapping H context a b) ∨
      OverlapSteps H context m b a (m.divideOverlapping H context a b) := by
  obtain ⟨s, hs⟩ : ∃ s, m.state = s := ⟨_, rfl⟩
  rw [hs] at h ha hb
  have ra := h.leftRight a ha
  have rb := h.leftRight b hb
  have hr : ∀ i, (s.rights (s.lefts i).right).start = s.leftEnd i := fun i => rfl
  unfold Machine.divideOverlapping
  rw [hs]
  by_cases h0 : (s.lefts a).start = (s.lefts b).start
  · simp only [h0, decide_true, Bool.true_or, if_true]
    by_cases h1 : s.leftEnd a = s.leftEnd b
    · simp only [h1, decide_true, if_true]
      exact .inl .same
    · simp only [h1, decide_false, Bool.false_or, Bool.false_eq_true, if_false]
      have hk : keyLt context s (.right (s.lefts b).right) (.right (s.lefts a).right)
          = decide (s.leftEnd b < s.leftEnd a) :=
        keyLt_of_ne context s (e := .right (s.lefts b).right)
          (e' := .right (s.lefts a).right) (fun e => h1 e.symm)
      rw [hk]
      simp only [decide_eq_true_eq]
      rcases lt_or_gt_of_ne h1 with h1 | h1
      · simp only [not_lt.mpr h1.le, if_false, rb.2, hr]
        subst hs
        exact .inl (.prefix h0 h1)
      · simp only [h1, if_true, ra.2, hr]
        subst hs
        exact .inr (.prefix h0.symm h1)
  · have hk0 : keyLt context s (.left b) (.left a)
        = decide ((s.lefts b).start < (s.lefts a).start) :=
      keyLt_of_ne context s (e := .left b) (e' := .left a) (fun e => h0 e.symm)
    simp only [h0, decide_false, Bool.false_or, hk0, Bool.false_eq_true, if_false]
    simp only [decide_eq_true_eq]
    by_cases h1 : s.leftEnd a = s.leftEnd b
    · simp only [h1, if_true]
      rcases lt_or_gt_of_ne h0 with h0 | h0
      · rw [if_neg (not_lt.mpr h0.le), if_neg (not_lt.mpr h0.le)]
        subst hs
        exact .inl (.suffix h0 h1)
      · rw [if_pos h0, if_pos h0]
        subst hs
        exact .inr (.suffix h0 h1.symm)
    · have hk : keyLt context s (.right (s.lefts b).right) (.right (s.lefts a).right)
          = decide (s.leftEnd b < s.leftEnd a) :=
        keyLt_of_ne context s (e := .right (s.lefts b).right)
          (e' := .right (s.lefts a).right) (fun e => h1 e.symm)
      simp only [h1, decide_false, Bool.false_or, hk, if_false]
      simp only [decide_eq_true_eq]
      rcases lt_or_gt_of_ne h1 with h1 | h1
      · simp only [not_lt.mpr h1.le, if_false, rb.2, hr]
        rcases lt_or_gt_of_ne h0 with h0 | h0
        · rw [if_neg (not_lt.mpr h0.le), if_neg (not_lt.mpr h0.le), if_neg hab]
          subst hs
          exact .inl (.shifted h0 h1)
        · rw [if_pos h0, if_pos h0, if_pos rfl]
          subst hs
          exact .inr (.inside h0 h1)
      · simp only [h1, if_true, ra.2, hr]
        rcases lt_or_gt_of_ne h0 with h0 | h0
        · rw [if_neg (not_lt.mpr h0.le), if_neg (not_lt.mpr h0.le), if_pos rfl]
          subst hs
          exact .inl (.inside h0 h1)
        · rw [if_pos h0, if_pos h0, if_neg (Ne.symm hab)]
          subst hs
          exact .inr (.shifted h0 h1)

theorem OverlapSteps.good (hH : H.Correct items ordered) (hc : context.Exact) {m m' : Machine K Q}
    (hg : m.Good items ordered context) (h : m.state.WF) (hcl : ¬ Clash m.state) {x y : Nat}
    (hx : x < m.state.nextLeft) (hy : y < m.state.nextLeft) (hxy : x ≠ y)
    (ho : Overlapping m.state x y) (hd : OverlapSteps H context m x y m') :
    m'.Good items ordered context := by
  have hcol := ho.collinear
  have hcol' := (ho.symm h hx hy).collinear
  cases hd with
  | same => exact hg
  | «prefix» h0 h1 => exact hg.divide hH hc h hcl hy (inner_of_between h hy hcol'.2 ho.lt' h1)
  | «suffix» h0 h1 => exact hg.divide hH hc h hcl hx (inner_of_between h hx hcol.1 h0 ho.lt')
  | inside h0 h1 =>
    have i1 := inner_of_between h hx hcol.2 ho.lt h1
    have w1 := divide_wf h hx _ i1
    have hx1 : x < (m.state.divide x (m.state.leftEnd y)).nextLeft := Nat.lt_succ_of_lt hx
    refine (hg.divide hH hc h hcl hx i1).divide hH hc w1 (not_clash_divide h hcl hx i1) hx1 ?_
    refine inner_of_between w1 hx1 ?_ ?_ ?_
    · rw [divide_start h hx _ hx, divide_leftEnd_self h hx]
      exact collinear_trans (h.nondegenerate hx) (cross_self_right _ _) hcol.2 hcol.1
    · rw [divide_start h hx _ hx]; exact h0
    · rw [divide_leftEnd_self h hx]; exact h.lt y hy
  | shifted h0 h1 =>
    have i1 := inner_of_between h hy hcol'.2 ho.lt' h1
    have w1 := divide_wf h hy _ i1
    have hx1 : x < (m.state.divide y (m.state.leftEnd x)).nextLeft := Nat.lt_succ_of_lt hx
    refine (hg.divide hH hc h hcl hy i1).divide hH hc w1 (not_clash_divide h hcl hy i1) hx1 ?_
    rw [divide_state, divide_seg_other h hy _ hx hxy]
    exact inner_of_between h hx hcol.1 h0 ho.lt'

theorem Good.divideOverlapping (hH : H.Correct items ordered) (hc : context.Exact) {m : Machine K Q}
    (hg : m.Good items ordered context) (h : m.state.WF) (hcl : ¬ Clash m.state) {a b : Nat}
    (ha : a < m.state.nextLeft) (hb : b < m.state.nextLeft) (hab : a ≠ b)
    (ho : Overlapping m.state a b) :
    (m.divideOverlapping H context a b).Good items ordered context := by
  rcases divideOverlapping_steps H context h ha hb hab with hd | hd
  · exact hd.good hH hc hg h hcl ha hb hab ho
  · exact hd.good hH hc hg h hcl hb ha hab.symm (ho.symm h ha hb)

theorem Good.divideAt (hH : H.Correct items ordered) (hc : context.Exact) {m : Machine K Q}
    (hg : m.Good items ordered context) (h : m.state.WF) (hcl : ¬ Clash m.state) {a b : Nat}
    (ha : a < m.state.nextLeft) (hb : b < m.state.nextLeft) {p : Point K}
    (hp : (m.state.seg a).pts ∩ (m.state.seg b).pts = {p}) :
    (m.divideAt H context a b p).Good items ordered context := by
  have hmem : p ∈ (m.state.seg a).pts ∩ (m.state.seg b).pts := by rw [hp]; rfl
  have hab : a ≠ b := by
    rintro rfl
    rw [Set.inter_self] at hp
    have := pts_nontrivial (h.nondegenerate ha)
    rw [hp] at this
    exact Set.not_nontrivial_singleton this
  unfold Machine.divideAt
  simp only
  by_cases h1 : p ≠ (m.state.lefts a).start ∧ p ≠ m.state.leftEnd a
  · rw [if_pos h1]
    have i1 : (m.state.seg a).Inner p := ⟨hmem.1, by rintro (e | e); exacts [h1.1 e, h1.2 e]⟩
    have g1 := hg.divide hH hc h hcl ha i1
    split
    · next h2 =>
      refine g1.divide hH hc (divide_wf h ha _ i1) (not_clash_divide h hcl ha i1)
        (Nat.lt_succ_of_lt hb) ⟨?_, ?_⟩
      · rw [divide_state, divide_seg_other h ha p hb hab.symm]; exact hmem.2
      · rintro (e | e)
        exacts [h2.1 e, h2.2 e]
    · exact g1
  · rw [if_neg h1]
    split
    · next h2 =>
      refine hg.divide hH hc h hcl hb ⟨hmem.2, ?_⟩
      rintro (e | e)
      exacts [h2.1 e, h2.2 e]
    · exact hg

theorem detectIntersectionLinear_follows (hH : H.Correct items ordered) (hc : context.Exact)
    {m : Machine K Q} (hg : m.Good items ordered context) (h : m.state.WF) (hcl : ¬ Clash m.state)
    {a b : Nat} (ha : a < m.state.nextLeft) (hb : b < m.state.nextLeft) {s' : State K}
    (hs : eventsQueue.detectIntersectionLinear context m.state a b = .ok s') :
    ∃ m', m.detectIntersectionLinear H context a b = .ok m' ∧ m'.state = s' ∧
      m'.Good items ordered context := by
  have ha' := h.nondegenerate ha
  have hb' := h.nondegenerate hb
  unfold eventsQueue.detectIntersectionLinear at hs
  unfold Machine.detectIntersectionLinear
  simp only at hs ⊢
  split_ifs at hs ⊢ with h1 h2 h3
  · exact ⟨_, rfl, (divideAt_state ..).trans (Except.ok.inj hs),
      hg.divideAt hH hc h hcl ha hb (inter_of_relation hc ha' hb' h1)⟩
  · have hn := nontrivial_of_relation hc ha' hb' h1 h2
    exact ⟨_, rfl, (divideOverlapping_state ..).trans (Except.ok.inj hs),
      hg.divideOverlapping hH hc h hcl ha hb (by rintro rfl; exact h3 rfl)
        ((overlapping_iff h ha hb).mp hn)⟩
  · exact ⟨_, rfl, Except.ok.inj hs, hg⟩

theorem detectIntersectionCompound_follows (hH : H.Correct items ordered) (hc : context.Exact)
    {m : Machine K Q} (hg : m.Good items ordered context) (h : m.state.WF) (hcl : ¬ Clash m.state)
    {a b : Nat} (ha : a < m.state.nextLeft) (hb : b < m.state.nextLeft) {r : State K × Bool}
    (hs : eventsQueue.detectIntersectionCompound context m.state a b = .ok r) :
    ∃ m', m.detectIntersectionCompound H context a b = .ok (m', r.2) ∧ m'.state = r.1 ∧
      m'.Good items ordered context := by
  have ha' := h.nondegenerate ha
  have hb' := h.nondegenerate hb
  rw [detectIntersectionCompound_eq] at hs
  unfold Machine.detectIntersectionCompound
  simp only at hs ⊢
  split_ifs at hs with h1 h2 h3 h4
  · obtain rfl := Except.ok.inj hs
    rw [if_pos h1]
    exact ⟨_, rfl, divideAt_state ..,
      hg.divideAt hH hc h hcl ha hb (inter_of_relation hc ha' hb' h1)⟩
  · have hn := nontrivial_of_relation hc ha' hb' h1 h2
    obtain rfl := Except.ok.inj hs
    rw [if_neg h1, if_pos h2, if_neg h3, if_pos h4]
    have k1 := (setKind_elem m.state a b (kindOf m.state a b)).1
    have ho := (overlapping_iff h ha hb).mp hn
    refine ⟨_, rfl, divideOverlapping_state .., ?_⟩
    refine (hg.shape hH k1).divideOverlapping hH hc (k1.wf h) (not_clash_shape h hcl k1)
      (k1.nextLeft ▸ ha) (k1.nextLeft ▸ hb) (by rintro rfl; exact h3 rfl) ⟨?_, ?_, ?_⟩
    · simp only; rw [k1.seg, k1.seg]; exact ho.collinear
    · simp only; rw [k1.start, k1.leftEnd]; exact ho.lt
    · simp only; rw [k1.start, k1.leftEnd]; exact ho.lt'
  · have hn := nontrivial_of_relation hc ha' hb' h1 h2
    obtain rfl := Except.ok.inj hs
    rw [if_neg h1, if_pos h2, if_neg h3, if_neg h4]
    exact ⟨_, rfl, divideOverlapping_state ..,
      hg.divideOverlapping hH hc h hcl ha hb (by rintro rfl; exact h3 rfl)
        ((overlapping_iff h ha hb).mp hn)⟩
  · obtain rfl := Except.ok.inj hs
    rw [if_neg h1, if_neg h2]
    exact ⟨_, rfl, rfl, hg⟩

end

/-! ### the sweep line -/

theorem increasing_allBelow {context : Context K} {s : State K} {l₁ l₂ : List Nat} {e : Nat}
    (h : Increasing (sweepLine.lt context s) (l₁ ++ e :: l₂)) :
    sweepLine.AllBelow context s e l₁ := fun n hn =>
  ((List.pairwise_append.mp h.pairwise).2.2 n hn e (List.mem_cons_self ..)).symm

theorem base_increasing {ε : K} {P : Finset (Point K)} {s : State K} {line : List Nat} {p : Point K}
    (hb : Base ε P s line p) {context : Context K} (hc : context.Exact) :
    Increasing (sweepLine.lt context s) line := by
  refine ⟨fun a _ => sweepLine.lt_irrefl .., ?_⟩
  have nd : line.Pairwise (· ≠ ·) := hb.nodup
  refine List.Pairwise.imp_of_mem (fun {i j} hi hj h => ?_) (nd.and hb.key)
  exact hb.clock.lt_of_key hc (hb.lt hi) (hb.lt hj) h.1 ((hb.start_le hj).trans (hb.le_end hi))
    ((hb.start_le hi).trans (hb.le_end hj)) h.2

theorem increasing_shape {context : Context K} {s t : State K} (h : SameShape s t) {line : List Nat}
    (hi : Increasing (sweepLine.lt context s) line) : Increasing (sweepLine.lt context t) line :=
  ⟨fun a ha => (lt_shape h context a a).trans (hi.irrefl a ha), hi.pairwise.imp fun h' =>
    ⟨(lt_shape h context _ _).trans h'.1, (lt_shape h context _ _).trans h'.2⟩⟩

section

variable {Z : SortedSet S} {elements : S → List Nat} (hZ : Z.Correct elements) {context : Context K}
  {s : State K} {z : S} {e : Nat} (he : e ∈ elements z)
  (hi : Increasing (sweepLine.lt context s) (elements z))

include hZ he hi

theorem next_eq : Z.next (sweepLine.lt context s) e z = sweepLine.above context s e (elements z) := by
  obtain ⟨l₁, l₂, h⟩ := List.append_of_mem he
  rw [h] at hi
  rw [hZ.next _ _ _ _ _ h hi, h, sweepLine.above_split (increasing_allBelow hi)]

theorem prev_eq : Z.prev (sweepLine.lt context s) e z = sweepLine.below context s e (elements z) := by
  obtain ⟨l₁, l₂, h⟩ := List.append_of_mem he
  rw [h] at hi
  rw [hZ.prev _ _ _ _ _ h hi, h, sweepLine.below_split (increasing_allBelow hi)]

theorem contains_eq : Z.contains (sweepLine.lt context s) e z = true ∧
    sweepLine.contains context s e (elements z) = true := by
  obtain ⟨l₁, l₂, h⟩ := List.append_of_mem he
  rw [h] at hi
  exact ⟨hZ.contains _ _ _ _ _ h hi, by rw [h, sweepLine.contains_split (increasing_allBelow hi)]⟩

theorem remove_eq : elements (Z.remove (sweepLine.lt context s) e z) =
    sweepLine.remove context s e (elements z) := by
  obtain ⟨l₁, l₂, h⟩ := List.append_of_mem he
  rw [h] at hi
  rw [hZ.remove _ _ _ _ _ h hi, h, sweepLine.remove_split (increasing_allBelow hi)]

end

/-! ### events -/

section

variable {H : PriorityQueue Q} {items : Q → List Ev} {ordered : (Ev → Ev → Bool) → Q → Prop}
  {Z : SortedSet S} {elements : S → List Nat} {context : Context K}

/-- The check of an event with the one above it. -/
def aboveLinear (H : PriorityQueue Q) (context : Context K) (m : Machine K Q) (a : Nat)
    (above : Option Nat) : Py (Machine K Q) :=
  match above with
  | some b => m.detectIntersectionLinear H context a b
  | none => .ok m

/-- The check of an event with the one below it. -/
def belowLinear (H : PriorityQueue Q) (context : Context K) (m : Machine K Q) (a : Nat)
    (below : Option Nat) : Py (Machine K Q) :=
  match below with
  | some b => m.detectIntersectionLinear H context b a
  | none => .ok m

theorem handleLeftLinear_eq (H : PriorityQueue Q) (Z : SortedSet S) (context : Context K)
    (m : Machine K Q) (z : S) (k : Nat) :
    handleLeftLinear H context Z m z k =
      (aboveLinear H context m k (Z.next (sweepLine.lt context m.state) k
        (Z.add (sweepLine.lt context m.state) k z))).bind fun m₁ =>
      (belowLinear H context m₁ k (Z.prev (sweepLine.lt context m.state) k
        (Z.add (sweepLine.lt context m.state) k z))).bind fun m₂ =>
      .ok (m₂, Z.add (sweepLine.lt context m.state) k z) := by
  unfold handleLeftLinear aboveLinear belowLinear
  simp only
  cases Z.next (sweepLine.lt context m.state) k (Z.add (sweepLine.lt context m.state) k z) with
  | none =>
    simp only [Except.bind]
    cases Z.prev (sweepLine.lt context m.state) k (Z.add (sweepLine.lt context m.state) k z) with
    | none => rfl
    | some b => simp only; cases detectIntersectionLinear H context m b k <;> rfl
  | some a =>
    simp only
    cases detectIntersectionLinear H context m k a with
    | error e => rfl
    | ok m₁ =>
      simp only [Except.bind]
      cases Z.prev (sweepLine.lt context m.state) k (Z.add (sweepLine.lt context m.state) k z) with
      | none => rfl
      | some b => simp only; cases detectIntersectionLinear H context m₁ b k <;> rfl

theorem checkAboveLinear_follows (hH : H.Correct items ordered) (hc : context.Exact)
    {m : Machine K Q} (hg : m.Good items ordered context) (h : m.state.WF) (hcl : ¬ Clash m.state)
    {a : Nat} {above : Option Nat} (ha : a < m.state.nextLeft)
    (hb : ∀ b, above = some b → b < m.state.nextLeft) {s' : State K}
    (hs : checkAboveLinear context m.state a above = .ok s') :
    ∃ m', aboveLinear H context m a above = .ok m' ∧ m'.state = s' ∧ m'.Good items ordered context ∧
      Elems m.state s' := by
  cases above with
  | none => exact ⟨m, rfl, Except.ok.inj hs, hg, Except.ok.inj hs ▸ .refl _⟩
  | some b =>
    have hs : eventsQueue.detectIntersectionLinear context m.state a b = .ok s' := hs
    obtain ⟨m', h1, h2, h3⟩ := detectIntersectionLinear_follows hH hc hg h hcl ha (hb b rfl) hs
    have := detectIntersectionLinear_spec hc h ha (hb b rfl)
    rw [hs] at this
    exact ⟨m', h1, h2, h3, this⟩

theorem checkBelowLinear_follows (hH : H.Correct items ordered) (hc : context.Exact)
    {m : Machine K Q} (hg : m.Good items ordered context) (h : m.state.WF) (hcl : ¬ Clash m.state)
    {a : Nat} {below : Option Nat} (ha : a < m.state.nextLeft)
    (hb : ∀ b, below = some b → b < m.state.nextLeft) {s' : State K}
    (hs : checkBelowLinear context m.state below a = .ok s') :
    ∃ m', belowLinear H context m a below = .ok m' ∧ m'.state = s' ∧ m'.Good items ordered context := by
  cases below with
  | none => exact ⟨m, rfl, Except.ok.inj hs, hg⟩
  | some b =>
    have hs : eventsQueue.detectIntersectionLinear context m.state b a = .ok s' := hs
    exact detectIntersectionLinear_follows hH hc hg h hcl (hb b rfl) ha hs

theorem handleLeftLinear_follows (hH : H.Correct items ordered) (hZ : Z.Correct elements)
    (hc : context.Exact) {m : Machine K Q} (hg : m.Good items ordered context) (h : m.state.WF)
    (hcl : ¬ Clash m.state) {z : S} {l₁ l₂ : List Nat} {k : Nat} (hz : elements z = l₁ ++ l₂)
    (add : sweepLine.add context m.state k (l₁ ++ l₂) = l₁ ++ k :: l₂)
    (hi : Increasing (sweepLine.lt context m.state) (l₁ ++ k :: l₂))
    (hlt : ∀ i ∈ l₁ ++ k :: l₂, i < m.state.nextLeft) {s' : State K} {line' : List Nat}
    (hs : handleLinear context m.state (l₁ ++ l₂) (.left k) = .ok (s', line')) :
    ∃ m' z', handleLeftLinear H context Z m z k = .ok (m', z') ∧ m'.state = s' ∧
      elements z' = line' ∧ m'.Good items ordered context := by
  have hadd := hZ.add _ _ _ _ _ hz hi
  rw [handleLinear_left, add] at hs
  rw [handleLeftLinear_eq]
  obtain ⟨z', hz'⟩ : ∃ z', Z.add (sweepLine.lt context m.state) k z = z' := ⟨_, rfl⟩
  rw [hz'] at hadd ⊢
  rw [hZ.next _ _ _ _ _ hadd hi, hZ.prev _ _ _ _ _ hadd hi]
  rw [sweepLine.above_split (increasing_allBelow hi),
    sweepLine.below_split (increasing_allBelow hi)] at hs
  have hk : k < m.state.nextLeft := hlt k (by simp)
  cases h1 : checkAboveLinear context m.state k l₂.head? with
  | error e => rw [h1] at hs; cases hs
  | ok s₁ =>
    obtain ⟨m₁, e1, rfl, g1, el⟩ := checkAboveLinear_follows hH hc hg h hcl hk
      (fun b hb => hlt b (by simp [List.mem_of_mem_head? hb])) h1
    rw [e1]
    rw [h1] at hs
    simp only [Except.bind] at hs
    have le := el.nextLeft_le.1
    cases h2 : checkBelowLinear context m₁.state l₁.getLast? k with
    | error e => rw [h2] at hs; cases hs
    | ok s₂ =>
      rw [h2] at hs
      simp only [Except.ok.injEq, Prod.mk.injEq] at hs
      obtain ⟨rfl, rfl⟩ := hs
      obtain ⟨m₂, e2, e3, g2⟩ := checkBelowLinear_follows hH hc g1 (el.wf h)
        (not_clash_elems h hcl el) (hk.trans_le le)
        (fun b hb => (hlt b (by simp [List.mem_of_mem_getLast? hb])).trans_le le) h2
      simp only [Except.bind]
      rw [e2]
      exact ⟨m₂, z', rfl, e3, hadd, g2⟩

theorem computePosition_good (hH : H.Correct items ordered) {m : Machine K Q}
    (hg : m.Good items ordered context) (below : Option Nat) (i : Nat) :
    (m.computePosition below i).Good items ordered context :=
  hg.shape hH (computePosition_elem m.state below i).1

theorem checkAbove_follows (hH : H.Correct items ordered) (hc : context.Exact)
    {m : Machine K Q} (hg : m.Good items ordered context) (h : m.state.WF) (hcl : ¬ Clash m.state)
    {a : Nat} {above : Option Nat} (ha : a < m.state.nextLeft)
    (hb : ∀ b, above = some b → b < m.state.nextLeft) {s' : State K}
    (hs : eventsQueue.checkAbove context m.state a above = .ok s') :
    ∃ m', m.checkAbove H context a above = .ok m' ∧ m'.state = s' ∧
      m'.Good items ordered context ∧ Elems m.state s' := by
  unfold Machine.checkAbove
  unfold eventsQueue.checkAbove at hs
  cases above with
  | none => exact ⟨m, rfl, Except.ok.inj hs, hg, Except.ok.inj hs ▸ .refl _⟩
  | some b =>
    simp only at hs ⊢
    cases hd : eventsQueue.detectIntersectionCompound context m.state a b with
    | error e => rw [hd] at hs; cases hs
    | ok r =>
      obtain ⟨m', h1, h2, h3⟩ := detectIntersectionCompound_follows hH hc hg h hcl ha (hb b rfl) hd
      have := detectIntersectionCompound_spec hc h ha (hb b rfl)
      rw [hd] at this hs
      have this : Elems m.state r.1 := this
      rw [h1]
      obtain ⟨t, o⟩ := r
      simp only at h2 this
      subst h2
      cases o with
      | false =>
        have hs : m'.state = s' := Except.ok.inj hs
        exact ⟨m', rfl, hs, h3, hs ▸ this⟩
      | true =>
        have hs : eventsQueue.computePosition m'.state (some a) b = s' := Except.ok.inj hs
        exact ⟨_, rfl, hs, computePosition_good hH h3 _ _,
          hs ▸ this.trans (computePosition_elems _ _ _)⟩

theorem checkBelow_follows (hH : H.Correct items ordered) (hZ : Z.Correct elements)
    (hc : context.Exact) {m : Machine K Q} (hg : m.Good items ordered context) (h : m.state.WF)
    (hcl : ¬ Clash m.state) {a : Nat} {below : Option Nat} (ha : a < m.state.nextLeft) {z : S}
    (hb : ∀ b, below = some b → b < m.state.nextLeft ∧ b ∈ elements z) {s' : State K}
    (hs : eventsQueue.checkBelow context m.state (elements z) below a = .ok s')
    (hi : Increasing (sweepLine.lt context s') (elements z)) :
    ∃ m', m.checkBelow H context Z z below a = .ok m' ∧ m'.state = s' ∧
      m'.Good items ordered context := by
  unfold Machine.checkBelow
  unfold eventsQueue.checkBelow at hs
  cases below with
  | none => exact ⟨m, rfl, Except.ok.inj hs, hg⟩
  | some b =>
    simp only at hs ⊢
    cases hd : eventsQueue.detectIntersectionCompound context m.state b a with
    | error e => rw [hd] at hs; cases hs
    | ok r =>
      obtain ⟨m', h1, h2, h3⟩ := detectIntersectionCompound_follows hH hc hg h hcl (hb b rfl).1 ha hd
      rw [hd] at hs
      rw [h1]
      obtain ⟨t, o⟩ := r
      simp only at h2
      subst h2
      cases o with
      | false => exact ⟨m', rfl, Except.ok.inj hs, h3⟩
      | true =>
        have hs : eventsQueue.computePosition m'.state
          (sweepLine.below context m'.state b (elements z)) b = s' := Except.ok.inj hs
        have hi' : Increasing (sweepLine.lt context m'.state) (elements z) := by
          have shape := (computePosition_elem m'.state
            (sweepLine.below context m'.state b (elements z)) b).1
          rw [hs] at shape
          refine ⟨fun a _ => sweepLine.lt_irrefl .., hi.pairwise.imp fun h' => ?_⟩
          rw [lt_shape shape, lt_shape shape] at h'
          exact h'
        refine ⟨_, rfl, ?_, computePosition_good hH h3 _ _⟩
        rw [← hs, ← prev_eq hZ (hb b rfl).2 hi']
        rfl

theorem handleLeftCompound_follows (hH : H.Correct items ordered) (hZ : Z.Correct elements)
    (hc : context.Exact) {m : Machine K Q} (hg : m.Good items ordered context) (h : m.state.WF)
    (hcl : ¬ Clash m.state) {z : S} {l₁ l₂ : List Nat} {k : Nat} (hz : elements z = l₁ ++ l₂)
    (add : sweepLine.add context m.state k (l₁ ++ l₂) = l₁ ++ k :: l₂)
    (hi : Increasing (sweepLine.lt context m.state) (l₁ ++ k :: l₂))
    (hlt : ∀ i ∈ l₁ ++ k :: l₂, i < m.state.nextLeft) {s' : State K} {line' : List Nat}
    (hs : handleCompound context m.state (l₁ ++ l₂) (.left k) = .ok (s', line'))
    (hi' : Increasing (sweepLine.lt context s') line') :
    ∃ m' z', handleLeftCompound H context Z m z k = .ok (m', z') ∧ m'.state = s' ∧
      elements z' = line' ∧ m'.Good items ordered context := by
  have hadd := hZ.add _ _ _ _ _ hz hi
  unfold handleCompound at hs
  simp only [add] at hs
  unfold Machine.handleLeftCompound
  simp only
  obtain ⟨z', hz'⟩ : ∃ z', Z.add (sweepLine.lt context m.state) k z = z' := ⟨_, rfl⟩
  rw [hz'] at hadd ⊢
  rw [hZ.next _ _ _ _ _ hadd hi, hZ.prev _ _ _ _ _ hadd hi]
  rw [sweepLine.above_split (increasing_allBelow hi),
    sweepLine.below_split (increasing_allBelow hi)] at hs
  have hk : k < m.state.nextLeft := hlt k (by simp)
  have shape := (computePosition_elem m.state l₁.getLast? k).1
  have g0 := computePosition_good hH hg l₁.getLast? k
  have w0 := shape.wf h
  have c0 := not_clash_shape h hcl shape
  have n0 := shape.nextLeft
  cases h1 : eventsQueue.checkAbove context (eventsQueue.computePosition m.state l₁.getLast? k) k
      l₂.head? with
  | error e => rw [h1] at hs; cases hs
  | ok s₁ =>
    obtain ⟨m₁, e1, rfl, g1, el⟩ := checkAbove_follows (m := m.computePosition l₁.getLast? k) hH hc g0
      w0 c0 (n0 ▸ hk)
      (fun b hb => n0 ▸ hlt b (by simp [List.mem_of_mem_head? hb])) h1
    rw [e1]
    rw [h1] at hs
    have le := el.nextLeft_le.1
    have le : m.state.nextLeft ≤ m₁.state.nextLeft := n0 ▸ le
    have hs : (eventsQueue.checkBelow context m₁.state (l₁ ++ k :: l₂) l₁.getLast? k).bind
      (fun s => .ok (s, l₁ ++ k :: l₂)) = .ok (s', line') := hs
    cases h2 : eventsQueue.checkBelow context m₁.state (l₁ ++ k :: l₂) l₁.getLast? k with
    | error e => rw [h2] at hs; cases hs
    | ok s₂ =>
      rw [h2] at hs
      simp only [Except.bind, Except.ok.injEq, Prod.mk.injEq] at hs
      obtain ⟨rfl, rfl⟩ := hs
      rw [← hadd] at h2 hi'
      obtain ⟨m₂, e2, e3, g2⟩ := checkBelow_follows hH hZ hc g1 (el.wf w0)
        (not_clash_elems w0 c0 el) (hk.trans_le le)
        (fun b hb => ⟨(hlt b (by simp [List.mem_of_mem_getLast? hb])).trans_le le,
          by rw [hadd]; simp [List.mem_of_mem_getLast? hb]⟩) h2 hi'
      simp only
      rw [e2]
      exact ⟨m₂, z', rfl, e3, hadd, g2⟩

theorem handleRightLinear_follows (hH : H.Correct items ordered) (hZ : Z.Correct elements)
    (hc : context.Exact) {m : Machine K Q} (hg : m.Good items ordered context) (h : m.state.WF)
    (hcl : ¬ Clash m.state) {z : S} {r : Nat} (hr : (m.state.rights r).left ∈ elements z)
    (hi : Increasing (sweepLine.lt context m.state) (elements z))
    (hlt : ∀ i ∈ elements z, i < m.state.nextLeft) {s' : State K} {line' : List Nat}
    (hs : handleLinear context m.state (elements z) (.right r) = .ok (s', line')) :
    ∃ m' z', handleRightLinear H context Z m z (m.state.rights r).left = .ok (m', z') ∧
      m'.state = s' ∧ elements z' = line' ∧ m'.Good items ordered context := by
  unfold handleLinear at hs
  unfold Machine.handleRightLinear
  simp only at hs ⊢
  have hcn := contains_eq hZ hr hi
  have hrm := remove_eq hZ hr hi
  rw [if_pos hcn.1]
  rw [if_pos hcn.2] at hs
  rw [next_eq hZ hr hi, prev_eq hZ hr hi]
  cases ha : sweepLine.above context m.state (m.state.rights r).left (elements z) with
  | none =>
    rw [ha] at hs
    simp only [pure, Except.pure, Except.ok.injEq, Prod.mk.injEq] at hs
    exact ⟨m, _, rfl, hs.1, hrm.trans hs.2, hg⟩
  | some a =>
    cases hb : sweepLine.below context m.state (m.state.rights r).left (elements z) with
    | none =>
      rw [ha, hb] at hs
      simp only [pure, Except.pure, Except.ok.injEq, Prod.mk.injEq] at hs
      exact ⟨m, _, rfl, hs.1, hrm.trans hs.2, hg⟩
    | some b =>
      rw [ha, hb] at hs
      have hs : (eventsQueue.detectIntersectionLinear context m.state b a).bind (fun s =>
        .ok (s, sweepLine.remove context m.state (m.state.rights r).left (elements z))) =
          .ok (s', line') := hs
      cases hd : eventsQueue.detectIntersectionLinear context m.state b a with
      | error e => rw [hd] at hs; cases hs
      | ok s₁ =>
        rw [hd] at hs
        simp only [Except.bind, Except.ok.injEq, Prod.mk.injEq] at hs
        obtain ⟨m', h1, h2, h3⟩ := detectIntersectionLinear_follows hH hc hg h hcl
          (hlt b (sweepLine.below_mem hb)) (hlt a (sweepLine.above_mem' ha)) hd
        simp only
        rw [h1]
        exact ⟨m', _, rfl, h2.trans hs.1, hrm.trans hs.2, h3⟩

theorem handleRightCompound_follows (hH : H.Correct items ordered) (hZ : Z.Correct elements)
    (hc : context.Exact) {m : Machine K Q} (hg : m.Good items ordered context) (h : m.state.WF)
    (hcl : ¬ Clash m.state) {z : S} {r : Nat} (hr : (m.state.rights r).left ∈ elements z)
    (hi : Increasing (sweepLine.lt context m.state) (elements z))
    (hlt : ∀ i ∈ elements z, i < m.state.nextLeft) {s' : State K} {line' : List Nat}
    (hs : handleCompound context m.state (elements z) (.right r) = .ok (s', line')) :
    ∃ m' z', handleRightCompound H context Z m z (m.state.rights r).left = .ok (m', z') ∧
      m'.state = s' ∧ elements z' = line' ∧ m'.Good items ordered context := by
  unfold handleCompound at hs
  unfold Machine.handleRightCompound
  simp only at hs ⊢
  have hcn := contains_eq hZ hr hi
  have hrm := remove_eq hZ hr hi
  rw [if_pos hcn.1]
  rw [if_pos hcn.2] at hs
  rw [next_eq hZ hr hi, prev_eq hZ hr hi]
  cases ha : sweepLine.above context m.state (m.state.rights r).left (elements z) with
  | none =>
    rw [ha] at hs
    simp only [pure, Except.pure, Except.ok.injEq, Prod.mk.injEq] at hs
    exact ⟨m, _, rfl, hs.1, hrm.trans hs.2, hg⟩
  | some a =>
    cases hb : sweepLine.below context m.state (m.state.rights r).left (elements z) with
    | none =>
      rw [ha, hb] at hs
      simp only [pure, Except.pure, Except.ok.injEq, Prod.mk.injEq] at hs
      exact ⟨m, _, rfl, hs.1, hrm.trans hs.2, hg⟩
    | some b =>
      rw [ha, hb] at hs
      simp only at hs
      cases hd : eventsQueue.detectIntersectionCompound context m.state b a with
      | error e => rw [hd] at hs; cases hs
      | ok q =>
        rw [hd] at hs
        have hs := Except.ok.inj hs
        simp only [Prod.mk.injEq] at hs
        obtain ⟨m', h1, h2, h3⟩ := detectIntersectionCompound_follows hH hc hg h hcl
          (hlt b (sweepLine.below_mem hb)) (hlt a (sweepLine.above_mem' ha)) hd
        simp only
        rw [h1]
        exact ⟨m', _, rfl, h2.trans hs.1, hrm.trans hs.2, h3⟩

/-- One event. -/
theorem handle_follows (hH : H.Correct items ordered) (hZ : Z.Correct elements) (hc : context.Exact)
    {linear : Bool} {ε : K} {P : Finset (Point K)} {s : State K} {z : S} {p : Point K}
    (hm : Moving ε P s (elements z) p) (hcl : ¬ Clash s) {e : Ev} (hpk : peek? context s = some e)
    (hp : s.evStart e = p) {m : Machine K Q} (ht : SameShape (popped s e) m.state)
    (hg : m.Good items ordered context) {s' : State K} {line' : List Nat}
    (hs : eventsQueue.handle linear context m.state (elements z) e = .ok (s', line')) :
    ∃ m' z', Machine.handle H context Z linear m z e = .ok (m', z') ∧ m'.state = s' ∧
      elements z' = line' ∧ m'.Good items ordered context := by
  have hb := hm.base
  have hmem := peek?_mem hpk
  have hw : m.state.WF := (hb.clock.pop e).wf |> ht.wf
  have hclt : ¬ Clash m.state := not_clash_shape (hb.clock.pop e).wf (show ¬ Clash (popped s e) from hcl) ht
  have hfin := (hm.handle hc hpk hp ht hs).1
  cases e with
  | left k =>
    obtain ⟨l₁, l₂, ins⟩ := hm.insert hc hmem hp (fun r hr e => by
      have := (peek?_prec hpk _ hr).2 (hp.trans e.symm) rfl
      cases this) ht
    have hi := base_increasing ins.base hc
    have add := ins.add
    rw [ins.split] at hs add
    cases linear with
    | true =>
      exact handleLeftLinear_follows hH hZ hc hg hw hclt ins.split add hi
        (fun i hi => ins.base.lt hi) hs
    | false =>
      exact handleLeftCompound_follows hH hZ hc hg hw hclt ins.split add hi
        (fun i hi => ins.base.lt hi) hs (base_increasing hfin.base hc)
  | right r =>
    have hws := hb.clock.wf
    have hv := hws.queueRight r hmem
    have hin : (s.rights r).left < s.nextLeft := (hws.rightLeft r hv).1
    have hir : (s.lefts (s.rights r).left).right = r := (hws.rightLeft r hv).2
    have hend : s.leftEnd (s.rights r).left = p := by rw [hws.leftEnd_left hv]; exact hp
    have hst : (s.lefts (s.rights r).left).start < p := hend ▸ hws.lt _ hin
    have hil : (s.rights r).left ∈ elements z := (hb.active _).mpr
      ⟨hin, fun hm => absurd (hb.queue _ hm) (not_le.mpr hst), hir.symm ▸ hmem⟩
    have hil' : (m.state.rights r).left ∈ elements z := by rw [ht.rights]; exact hil
    have hi : Increasing (sweepLine.lt context m.state) (elements z) :=
      increasing_shape ht (base_increasing hb hc)
    have hlt : ∀ i ∈ elements z, i < m.state.nextLeft := fun i hi => ht.nextLeft ▸ hb.lt hi
    cases linear with
    | true => exact handleRightLinear_follows hH hZ hc hg hw hclt hil' hi hlt hs
    | false => exact handleRightCompound_follows hH hZ hc hg hw hclt hil' hi hlt hs

/-- The event which is handled next. -/
theorem peek_eq (hH : H.Correct items ordered) (hc : context.Exact) {m : Machine K Q}
    (hg : m.Good items ordered context) (hw : m.state.WF) (hcl : ¬ Clash m.state) :
    H.peek m.queue = peek? context m.state := by
  have nd : (items m.queue).Nodup := hg.perm.nodup_iff.mpr hw.nodup
  have strict : StrictOn (keyLt context m.state) (items m.queue) := strictOn hc hw hcl fun e he =>
    hw.valid_of_mem (hg.perm.mem_iff.mp he)
  cases he : H.peek m.queue with
  | none =>
    have h0 := hH.peek_none _ _ hg.ordered nd strict he
    have hq : m.state.queue = [] := by
      have := hg.perm
      rw [h0] at this
      exact this.nil_eq.symm
    cases hp : peek? context m.state with
    | none => rfl
    | some e =>
      have := peek?_mem hp
      rw [hq] at this
      cases this
  | some e =>
    obtain ⟨h1, h2⟩ := hH.peek_some _ _ _ hg.ordered nd strict he
    exact (peek?_least hc hw hcl (hg.perm.mem_iff.mp h1) fun e' he' hne =>
      h2 e' (hg.perm.mem_iff.mpr he') hne).symm

theorem pop_good (hH : H.Correct items ordered) (hc : context.Exact) {m : Machine K Q}
    (hg : m.Good items ordered context) (hw : m.state.WF) (hcl : ¬ Clash m.state) {e : Ev}
    (he : H.peek m.queue = some e) :
    (⟨popped m.state e, H.pop (keyLt context m.state) m.queue⟩ : Machine K Q).Good items ordered
      context := by
  have nd : (items m.queue).Nodup := hg.perm.nodup_iff.mpr hw.nodup
  have strict : StrictOn (keyLt context m.state) (items m.queue) := strictOn hc hw hcl fun e he =>
    hw.valid_of_mem (hg.perm.mem_iff.mp he)
  obtain ⟨h1, h2⟩ := hH.pop _ _ _ hg.ordered nd strict he
  exact ⟨h1.trans (hg.perm.erase e), h2⟩

/-- The sweep line arrives at the event. -/
theorem track_moving {ε : K} {P : Finset (Point K)} {c : Config K} {ems : List (Emitted K)}
    {p : Point K} (tr : Track ε P c ems p) {e : Ev} (he : peek? context c.s = some e) :
    Moving ε P c.s c.line (c.s.evStart e) := by
  have hmem := peek?_mem he
  rcases (tr.moving.base.queue e hmem).eq_or_lt with h | h
  · rw [← h]; exact tr.moving
  · exact (tr.moving.advance h (peek?_le he) ⟨e, hmem, rfl⟩).1

/-- The loop. -/
theorem sweepLoop_follows (hH : H.Correct items ordered) (hZ : Z.Correct elements)
    (hc : context.Exact) {linear : Bool} {stopX : K} {ε : K} {P : Finset (Point K)} (fuel : Nat)
    {m : Machine K Q} {z : S} {start : Option (Point K)} {group : List Ev}
    (hg : m.Good items ordered context) (hi : Inv ⟨m.state, elements z, start, group⟩)
    (hcl : ¬ Clash m.state)
    (tr : m.state.queue ≠ [] →
      ∃ ems p, Track ε P ⟨m.state, elements z, start, group⟩ ems p) :
    Machine.sweepLoop H context Z linear stopX fuel m z start group =
      eventsQueue.sweepLoop linear context stopX fuel m.state (elements z) start group := by
  induction fuel generalizing m z start group with
  | zero => rfl
  | succ fuel ih =>
    have hw := hi.wf
    have hpq := peek_eq hH hc hg hw hcl
    have succ := sweepLoop_succ linear context stopX fuel ⟨m.state, elements z, start, group⟩
    simp only at succ
    rw [succ]
    cases hs : sweepStep linear context stopX ⟨m.state, elements z, start, group⟩ with
    | none =>
      unfold Machine.sweepLoop
      rw [hpq]
      unfold sweepStep at hs
      simp only at hs ⊢
      split at hs
      · next hp => rw [hp]
      · next e hp =>
        rw [hp]
        simp only
        split at hs
        · next hx => rw [if_pos hx]
        · cases hs
    | some r =>
      obtain ⟨ems', r⟩ := r
      obtain ⟨e, t, start', group', it, hr⟩ := sweepStep_some hs
      have hpe : peek? context m.state = some e := it.peek
      have hne : m.state.queue ≠ [] := fun h0 => by
        have := peek?_mem hpe
        rw [h0] at this
        cases this
      obtain ⟨ems, p, tr⟩ := tr hne
      have out := sweepStep_spec hc hi hs
      have hw' := (it.runs hi).wf hi.wf
      have shape : SameShape (popped m.state e) t := (it.rels hi).shape
      have hmov := track_moving tr hpe
      have hgp := pop_good hH hc hg hw hcl (hpq.trans hpe)
      have hgt := hgp.shape hH shape
      have hx : ¬ stopX < (m.state.evStart e).x := not_lt.mpr it.le
      cases hh : eventsQueue.handle linear context t (elements z) e with
      | error err =>
        simp only [hh] at hr
        have hr : r = .error err := hr
        rw [hr] at out
        obtain ⟨-, u, h1, h2⟩ := out
        obtain ⟨o, ho⟩ := h1.refines hw
        exact absurd (ho.clash (h1.wf hw) h2) hcl
      | ok q =>
        obtain ⟨s', line'⟩ := q
        simp only [hh] at hr
        have hr : r = .ok ⟨s', line', start', group'⟩ := hr
        subst hr
        obtain ⟨m', z', e1, rfl, rfl, g'⟩ := handle_follows hH hZ hc hmov hcl hpe rfl
          (m := ⟨t, H.pop (keyLt context m.state) m.queue⟩) shape hgt hh
        obtain ⟨inv', e', he', el⟩ := out
        have runs' : Runs m.state m'.state := ((Runs.refl _).pop e' he').trans el.runs
        obtain ⟨p', tr', -⟩ := tr.step hc hi hs
        have next := ih (m := m') (z := z') (start := start') (group := group') g' inv'
          (fun h' => by
            obtain ⟨o, ho⟩ := runs'.refines hw
            exact hcl (ho.clash inv'.wf h')) fun _ => ⟨_, p', tr'⟩
        simp only
        rw [← next]
        rw [Machine.sweepLoop, hpq, hpe]
        simp only [gt_iff_lt, if_neg hx]
        rcases it.closed with ⟨h1, h2, h3, h4, h5⟩ | ⟨h1, h2, h3, h4, h5⟩
        · have h1 : some (State.evStart (popped m.state e) e) = start := h1
          unfold popped at h1 h3
          simp only at h2 h3 h4 h5
          simp only [h1, decide_true, if_true]
          rw [← h3, e1, h2, h4, h5]
        · have h1 : ¬ some (State.evStart (popped m.state e) e) = start := h1
          unfold popped at h1 h2 h3
          simp only at h2 h3 h4 h5
          simp only [h1, decide_false, Bool.false_eq_true, if_false]
          rw [← h2, ← h3, e1, h4, h5]

/-- A sweep. -/
theorem sweep_follows (hH : H.Correct items ordered) (hZ : Z.Correct elements)
    (hc : context.Exact) (linear : Bool) (stopX : K) {m : Machine K Q}
    (hg : m.Good items ordered context) (hf : m.state.Fresh) (hcl : ¬ Clash m.state) :
    Machine.sweep H context Z linear stopX m = eventsQueue.sweep linear context stopX m.state := by
  obtain ⟨P, hP, -⟩ := exists_breakPoints hf.wf
  obtain ⟨ε, hε⟩ := exists_inclination P
  have c : Clock ε P m.state := ⟨hf.wf, hP, hε⟩
  unfold Machine.sweep eventsQueue.sweep
  rw [peek_eq hH hc hg hf.wf hcl, ← hZ.empty]
  refine sweepLoop_follows (ε := ε) (P := P) hH hZ hc _ hg ?_ hcl fun hne => ?_
  · rw [hZ.empty]; exact initial_inv context hf.wf
  · cases he : peek? context m.state with
    | none => exact absurd (peek?_none he) hne
    | some e =>
      rw [hZ.empty]
      have := track_initial hf c hcl he
      unfold initial at this
      rw [he] at this
      exact ⟨_, _, this⟩

end

end Machine

end Orient
