import Verif.Lemmas.Met
import Verif.Lemmas.Sweep.Queued

/-! The order of the events of a group. -/

set_option linter.unusedSectionVars false

namespace Orient.eventsQueue

variable {K : Type} [Field K] [LinearOrder K] [IsStrictOrderedRing K]

open Segment State

/-- No two pieces overlap. -/
def Separate (s : State K) : Prop :=
  ∀ i < s.nextLeft, ∀ j < s.nextLeft, i ≠ j → ¬ ((s.seg i).pts ∩ (s.seg j).pts).Nontrivial

theorem Separate.refines {s s' : State K} {o : Nat → Nat} (h : Separate s) (hr : Refines s s' o)
    (hw : s'.WF) : Separate s' := by
  intro i hi j hj hij hn
  by_cases e : o i = o j
  · exact Set.not_subsingleton_iff.mpr hn (hr.subsingleton hw hi hj hij e)
  · exact h _ (hr.lt i hi) _ (hr.lt j hj) e
      (hn.mono (Set.inter_subset_inter (hr.subset i hi) (hr.subset j hj)))

theorem separate_of {s : State K} (hcl : ¬ Clash s)
    (hns : ¬ SharesPiece (s.operand true) (s.operand false)) : Separate s := by
  intro i hi j hj hij hn
  by_cases hf : (s.lefts j).fromTest = (s.lefts i).fromTest
  · exact hcl ⟨i, j, hi, hj, hij, hf, hn⟩
  · have sub1 := seg_subset_operand s hi
    have sub2 := seg_subset_operand s hj
    cases hb : (s.lefts i).fromTest with
    | true =>
      have hb' : (s.lefts j).fromTest = false := by rw [hb] at hf; simpa using hf
      rw [hb] at sub1
      rw [hb'] at sub2
      exact hns ((sharesPiece_of_nontrivial hn).mono sub1 sub2)
    | false =>
      have hb' : (s.lefts j).fromTest = true := by rw [hb] at hf; simpa using hf
      rw [hb] at sub1
      rw [hb'] at sub2
      rw [Set.inter_comm] at hn
      exact hns ((sharesPiece_of_nontrivial hn).mono sub2 sub1)

theorem Separate.shape {s t : State K} (h : Separate s) (hs : SameShape s t) : Separate t := by
  intro i hi j hj hij
  rw [hs.seg, hs.seg]
  exact h i (hs.nextLeft ▸ hi) j (hs.nextLeft ▸ hj) hij

theorem Separate.rays {s : State K} (h : Separate s) (hw : s.WF) {e e' : Ev} (hv : s.Valid e)
    (hv' : s.Valid e') (hs : s.evStart e = s.evStart e') (hne : e ≠ e') :
    ¬ SameRay (s.evStart e) (s.evEnd e) (s.evEnd e') := by
  intro hr
  have hnt := hr.nontrivial (evEnd_ne hw hv)
  have e1 := pts_of_event hw hv
  have e2 := pts_of_event hw hv'
  rw [← hs] at e2
  rw [e1, e2] at hnt
  exact h _ (hw.leftOf_lt hv) _ (hw.leftOf_lt hv') (fun e => hne (leftOf_inj hw hv hv' hs e)) hnt

/-! ### the key -/

theorem keyLt_iff {context : Context K} (hc : context.Exact) {s : State K} (hw : s.WF) {e e' : Ev}
    (hv : s.Valid e) (hv' : s.Valid e') (hs : s.evStart e = s.evStart e')
    (hn : ¬ SameRay (s.evStart e) (s.evEnd e) (s.evEnd e')) :
    keyLt context s e e' = true ↔ SweptBefore (s.evStart e) (s.evEnd e) (s.evEnd e') := by
  have h1 := evEnd_side hw hv
  have h2 := evEnd_side hw hv'
  have n1 := evEnd_ne hw hv
  have n2 := evEnd_ne hw hv'
  rw [← hs] at h2 n2
  by_cases hk : e.isLeft = e'.isLeft
  · have hcr : cross (s.evStart e) (s.evEnd e) (s.evEnd e') ≠ 0 := by
      intro e0
      refine hn (sameRay_of_cross n1 n2 e0 ?_)
      rw [← hk] at h2
      split_ifs at h1 h2
      · exact ⟨fun h => absurd h h1.asymm, fun h => absurd h h2.asymm⟩
      · exact ⟨fun _ => h2, fun _ => h1⟩
    have hcol : context.angleOrientation (s.evStart e) (s.evEnd e) (s.evEnd e') ≠ .collinear := by
      intro h
      have a1 := hc.counterclockwise (s.evStart e) (s.evEnd e) (s.evEnd e')
      have a2 := hc.clockwise (s.evStart e) (s.evEnd e) (s.evEnd e')
      rw [h] at a1 a2
      simp only [reduceCtorEq, false_iff, not_lt] at a1 a2
      exact hcr (le_antisymm a1 a2)
    unfold keyLt
    simp only [hs, ne_eq, not_true_eq_false, if_false, hk]
    rw [← hs, if_neg hcol]
    rw [← hk] at h2 ⊢
    split_ifs at h1 h2 ⊢
    · rw [decide_eq_true_iff, hc.counterclockwise]
      unfold SweptBefore
      constructor
      · exact fun h => .inr (.inr ⟨h1, h2, h⟩)
      · rintro (⟨k, -⟩ | ⟨k, -⟩ | ⟨-, -, k⟩)
        · exact absurd k h1.asymm
        · exact absurd k h1.asymm
        · exact k
    · rw [decide_eq_true_iff, hc.clockwise]
      unfold SweptBefore
      constructor
      · exact fun h => .inr (.inl ⟨h1, h2, h⟩)
      · rintro (⟨-, k⟩ | ⟨-, -, k⟩ | ⟨k, -⟩)
        · exact absurd k h2.asymm
        · exact k
        · exact absurd k h1.asymm
  · rw [keyLt_of_kinds context s hs hk]
    unfold SweptBefore
    cases hl : e.isLeft <;> cases hl' : e'.isLeft <;> simp only [hl, hl', reduceCtorEq, if_true,
      if_false, not_true_eq_false, Bool.false_eq_true] at h1 h2 hk ⊢
    · exact iff_of_true trivial (.inl ⟨h1, h2⟩)
    · refine iff_of_false not_false ?_
      rintro (⟨-, k⟩ | ⟨k, -⟩ | ⟨-, k, -⟩)
      · exact k.asymm h2
      · exact k.asymm h1
      · exact k.asymm h2

/-- The first event starts earlier, or they start together and it is met first. -/
def Sooner (s : State K) (e e' : Ev) : Prop :=
  s.evStart e < s.evStart e' ∨
    (s.evStart e = s.evStart e' ∧ SweptBefore (s.evStart e) (s.evEnd e) (s.evEnd e'))

theorem Sooner.trans {s : State K} {a b c : Ev} (h : Sooner s a b) (h' : Sooner s b c) :
    Sooner s a c := by
  rcases h with h | ⟨h, k⟩ <;> rcases h' with h' | ⟨h', k'⟩
  · exact .inl (h.trans h')
  · exact .inl (h' ▸ h)
  · exact .inl (h ▸ h')
  · refine .inr ⟨h.trans h', k.trans ?_⟩
    rw [h]; exact k'

theorem keyLt_sooner {context : Context K} (hc : context.Exact) {s : State K} (hw : s.WF)
    (sep : Separate s) {e e' : Ev} (hv : s.Valid e) (hv' : s.Valid e') :
    (keyLt context s e e' = true → e' = e ∨ Sooner s e e') ∧
    (¬ keyLt context s e e' = true → e = e' ∨ Sooner s e' e) := by
  by_cases hne : e = e'
  · exact ⟨fun _ => .inl hne.symm, fun _ => .inl hne⟩
  rcases lt_trichotomy (s.evStart e) (s.evStart e') with h | h | h
  · exact ⟨fun _ => .inr (.inl h), fun k => absurd (keyLt_of_lt context s h) k⟩
  · have hn := sep.rays hw hv hv' h hne
    rw [keyLt_iff hc hw hv hv' h hn]
    refine ⟨fun k => .inr (.inr ⟨h, k⟩), fun k => .inr (.inr ⟨h.symm, ?_⟩)⟩
    have n2 := evEnd_ne hw hv'
    rw [← h] at n2 ⊢
    exact (sweptBefore_or (evEnd_ne hw hv) n2 hn).resolve_left k
  · refine ⟨fun k => absurd (keyLt_start context s k) (not_le.mpr h), fun _ => .inr (.inl h)⟩

theorem least_sooner {context : Context K} (hc : context.Exact) {s : State K} (hw : s.WF)
    (sep : Separate s) (best : Ev) (l : List Ev) (hv : ∀ e ∈ best :: l, s.Valid e) :
    ∀ e ∈ best :: l, e = least context s best l ∨ Sooner s (least context s best l) e := by
  induction l generalizing best with
  | nil => intro e he; exact .inl (List.mem_singleton.mp he)
  | cons x l ih =>
    intro e he
    rw [least]
    have vb := hv best (List.mem_cons_self ..)
    have vx := hv x (List.mem_cons_of_mem _ (List.mem_cons_self ..))
    obtain ⟨k1, k2⟩ := keyLt_sooner hc hw sep vx vb
    have le_trans : ∀ {a b c : Ev}, (b = a ∨ Sooner s a b) → (c = b ∨ Sooner s b c) →
        (c = a ∨ Sooner s a c) := by
      rintro a b c (rfl | h1) (rfl | h2)
      · exact .inl rfl
      · exact .inr h2
      · exact .inr h1
      · exact .inr (h1.trans h2)
    have ih := ih (if keyLt context s x best then x else best) (by
      intro z hz
      rcases List.mem_cons.mp hz with rfl | hz
      · split
        · exact vx
        · exact vb
      · exact hv z (List.mem_cons_of_mem _ (List.mem_cons_of_mem _ hz)))
    have h0 := ih _ (List.mem_cons_self ..)
    rcases List.mem_cons.mp he with rfl | he
    · refine le_trans h0 ?_
      split
      · next hk => exact k1 hk
      · exact .inl rfl
    · rcases List.mem_cons.mp he with rfl | he
      · refine le_trans h0 ?_
        split
        · exact .inl rfl
        · next hk => exact k2 hk
      · exact ih e (List.mem_cons_of_mem _ he)

theorem peek?_sooner {context : Context K} (hc : context.Exact) {s : State K} (hw : s.WF)
    (sep : Separate s) {e : Ev} (h : peek? context s = some e) :
    ∀ e' ∈ s.queue, e' = e ∨ Sooner s e e' := by
  unfold peek? at h
  split at h
  · cases h
  · next hq =>
    simp only [Option.some.injEq] at h
    have := least_sooner hc hw sep _ _ (fun x hx => hw.valid_of_mem (by rw [hq]; exact hx))
    rw [hq, ← h]
    exact this

/-! ### pieces through a point -/

/-- A piece goes on beyond the point. -/
def Passes (s : State K) (p : Point K) : Prop :=
  ∃ i < s.nextLeft, p ∈ (s.seg i).pts ∧ (s.lefts i).start < p ∧ p < s.leftEnd i

theorem Passes.shape {s t : State K} (hs : SameShape s t) {p : Point K} : Passes t p ↔ Passes s p := by
  unfold Passes
  simp only [hs.nextLeft, hs.seg, hs.start, hs.leftEnd]

theorem Passes.of_divide {s : State K} (hw : s.WF) {i : Nat} (hi : i < s.nextLeft) {x p : Point K}
    (hx : (s.seg i).Inner x) (h : Passes (s.divide i x) p) : Passes s p := by
  obtain ⟨j, hj, h1, h2, h3⟩ := h
  obtain ⟨hx0, hx1, hx2⟩ := (hw.inner_iff hi).mp hx
  obtain ⟨d1, d2, -⟩ := divide_parts hw hi hx
  rcases Nat.lt_succ_iff_lt_or_eq.mp hj with hj | rfl
  · by_cases hji : j = i
    · subst hji
      rw [divide_start hw hi x hi] at h2
      rw [divide_leftEnd_self hw hi] at h3
      exact ⟨j, hi, d1 h1, h2, h3.trans hx2⟩
    · rw [divide_seg_other hw hi x hj hji] at h1
      rw [divide_start hw hi x hj] at h2
      rw [divide_leftEnd_other hw hi x hj hji] at h3
      exact ⟨j, hj, h1, h2, h3⟩
  · rw [divide_leftEnd_new hw hi] at h3
    rw [divide_lefts_new hw hi x] at h2
    exact ⟨i, hi, d2 h1, hx1.trans h2, h3⟩

/-- If no piece goes on beyond the point then no event appears there. -/
theorem Elems.no_new {s t : State K} (h : Elems s t) (hw : s.WF) {p : Point K} (hn : ¬ Passes s p) :
    ¬ Passes t p ∧ ∀ e, t.Valid e → t.evStart e = p → s.Valid e := by
  induction h with
  | refl => exact ⟨hn, fun e h _ => h⟩
  | tail h1 h2 ih =>
    obtain ⟨ih1, ih2⟩ := ih
    have hw' := h1.wf hw
    have shape : ∀ {u v : State K}, SameShape u v → ∀ e, v.Valid e → u.Valid e := by
      intro u v hs e he
      cases e with
      | left i => exact (show i < u.nextLeft from hs.nextLeft ▸ he)
      | right i => exact (show i < u.nextRight from hs.nextRight ▸ he)
    cases h2 with
    | flags hs _ =>
      refine ⟨fun h => ih1 ((Passes.shape hs).mp h), fun e he hp => ?_⟩
      rw [SameShape.evStart hs] at hp
      exact ih2 e (shape hs e he) hp
    | relation hs =>
      refine ⟨fun h => ih1 ((Passes.shape hs.shape).mp h), fun e he hp => ?_⟩
      rw [SameShape.evStart hs.shape] at hp
      exact ih2 e (shape hs.shape e he) hp
    | divide i x hi hx hj =>
      refine ⟨fun h => ih1 (Passes.of_divide hw' hi hx h), fun e he hp => ?_⟩
      obtain ⟨hx0, hx1, hx2⟩ := (hw'.inner_iff hi).mp hx
      have hxp : x ≠ p := by
        rintro rfl
        exact ih1 ⟨i, hi, hx0, hx1, hx2⟩
      cases e with
      | left k =>
        rcases Nat.lt_succ_iff_lt_or_eq.mp he with hk | rfl
        · refine ih2 (.left k) hk ?_
          exact (divide_start hw' hi x hk).symm.trans hp
        · have hp := hp
          simp only [State.evStart] at hp
          rw [divide_lefts_new hw' hi x] at hp
          exact absurd hp hxp
      | right k =>
        rcases Nat.lt_succ_iff_lt_or_eq.mp he with hk | rfl
        · refine ih2 (.right k) hk ?_
          exact (divide_right_start hw' hi x hk).symm.trans hp
        · have hp := hp
          simp only [State.evStart] at hp
          rw [divide_rights_new hw' hi x] at hp
          exact absurd hp hxp

theorem Elems.evEnd_ray {s t : State K} (h : Elems s t) (hw : s.WF) {e : Ev} (he : s.Valid e) :
    SameRay (s.evStart e) (s.evEnd e) (t.evEnd e) := by
  induction h with
  | refl => exact .refl _ _
  | tail h1 h2 ih =>
    have hw' := h1.wf hw
    have hv := h1.valid he
    refine ih.trans ?_
    rw [← (h1.evStart hw he).1]
    have shape : ∀ {u v : State K}, SameShape u v → v.evEnd e = u.evEnd e := by
      intro u v hs
      cases e with
      | left i => exact hs.leftEnd i
      | right i => simp only [State.evEnd, hs.rights, hs.start]
    cases h2 with
    | flags hs _ => rw [shape hs]; exact .refl _ _
    | relation hs => rw [shape hs.shape]; exact .refl _ _
    | divide i x hi hx hj => exact divide_evEnd hw' hi hx hv

section

variable {ε : K} {P : Finset (Point K)} {s s₀ : State K} {o : Nat → Nat} {line : List Nat} {p : Point K}

/-- Pieces through a point on one line overlap. -/
theorem Separate.not_same (sep : Separate s) (c : Clock ε P s) {i j : Nat} (hi : i < s.nextLeft)
    (hj : j < s.nextLeft) (hij : i ≠ j) (h1 : (s.lefts i).start < s.leftEnd j)
    (h2 : (s.lefts j).start < s.leftEnd i) : ¬ Same ε (s.seg i) (s.seg j) := fun hs =>
  sep i hi j hj hij ((overlapping_iff c.wf hi hj).mpr ⟨(c.same_iff hi hj).mp hs, h1, h2⟩)

/-- After an event at the point has been handled no piece goes on beyond it. -/
theorem Moving.not_passes (hm : Moving ε P s line p) (sep : Separate s) {x : Ev} (hv : s.Valid x)
    (hx : s.evStart x = p) (hq : x ∉ s.queue) : ¬ Passes s p := by
  rintro ⟨i, hi, mi, h1, h2⟩
  have hb := hm.base
  have hw := hb.clock.wf
  have notq : ∀ {j : Nat}, (s.lefts j).start < p → Ev.left j ∉ s.queue := fun h hm =>
    absurd (hb.queue _ hm) (not_le.mpr h)
  have hil := hb.mem_line hi (notq h1) h2
  rcases hm.phase with h | h
  · cases x with
    | left k =>
      have hk : (s.lefts k).start = p := hx
      have := hw.lt k hv
      rw [hk] at this
      exact (h.before k (hb.mem_line hv hq this)).ne hk
    | right r =>
      obtain ⟨k, hk⟩ : ∃ k, (s.rights r).left = k := ⟨_, rfl⟩
      have hkn : k < s.nextLeft := hk ▸ (hw.rightLeft r hv).1
      have ek : s.leftEnd k = p := by rw [← hk, hw.leftEnd_left hv]; exact hx
      have lk : (s.lefts k).start < p := ek ▸ hw.lt k hkn
      rcases h.thru i hil mi h2 with ⟨m, hm1, hm2, hm3⟩ | h3
      · have hmn := hw.queueLeft m hm1
        have := hw.lt m hmn
        rw [hm2] at this
        refine sep.not_same hb.clock hi hmn ?_ (h1.trans this) (hm2 ▸ h2) hm3
        rintro rfl
        exact h1.ne hm2
      · exact (h3 k hkn lk (by rw [← ek]; exact finish_mem _)).2.ne ek.symm
  · obtain ⟨k, hk, hk'⟩ := h.some
    have hc : line.IsChain fun i j => (s.seg i).height ε (p.time ε) < (s.seg j).height ε (p.time ε) ∨
        ((s.seg i).height ε (p.time ε) = (s.seg j).height ε (p.time ε) ∧
          ((s.seg i).IsEndpoint p ↔ (s.seg j).IsEndpoint p)) := by
      refine List.IsChain.imp_of_mem_imp ?_ (isChain_and (isChain_and hm.chain h.sorted.isChain)
        (show line.IsChain (· ≠ ·) from List.Pairwise.isChain hb.nodup))
      rintro i j hi hj ⟨⟨h1, h2⟩, hij⟩
      rcases h2.height_le.lt_or_eq with h3 | h3
      · exact .inl h3
      · refine .inr ⟨h3, ?_⟩
        by_cases hs : Same ε (s.seg i) (s.seg j)
        · rcases h1.same hs with h | h | h
          · exfalso
            refine sep.not_same hb.clock (hb.lt hi) (hb.lt hj) hij ?_ ?_ hs
            · rw [h.1]; exact hw.lt j (hb.lt hj)
            · rw [← h.1]; exact hw.lt i (hb.lt hi)
          · have e1 : p = s.leftEnd i := le_antisymm (hb.le_end hi) (h ▸ hb.start_le hj)
            have e2 : p = (s.lefts j).start := e1.trans h
            exact iff_of_true (.inr e1) (.inl e2)
          · have e1 : p = s.leftEnd j := le_antisymm (hb.le_end hj) (h ▸ hb.start_le hi)
            have e2 : p = (s.lefts i).start := e1.trans h
            exact iff_of_true (.inl e2) (.inr e1)
        · obtain ⟨k1, k2⟩ := Clock.common_at hb.clock (hb.lt hi) (hb.lt hj) hs hb.mem (hb.start_le hi)
            (hb.le_end hi) (hb.start_le hj) (hb.le_end hj) h3
          obtain ⟨e1, e2⟩ := h1.cross hs p k1 k2
          exact iff_of_true e1 e2
    have e : (s.seg i).height ε (p.time ε) = (s.seg k).height ε (p.time ε) := by
      rw [← hb.clock.height hi mi, ← hb.clock.height (hb.lt hk)]
      rw [← hk']; exact start_mem _
    rcases (chain_color hc hil hk e).mpr (.inl hk'.symm) with e | e
    · exact h1.ne e.symm
    · exact h2.ne e

/-! ### where pieces have been divided -/

/-- The point is an end of a segment, or a common point of two of them which start earlier. -/
def Explained (s₀ : State K) (x : Point K) : Prop :=
  (∃ j < s₀.nextLeft, s₀.leftEnd j = x) ∨ ∃ j < s₀.nextLeft, ∃ k < s₀.nextLeft, j ≠ k ∧
    x ∈ (s₀.seg j).pts ∧ x ∈ (s₀.seg k).pts ∧ (s₀.lefts j).start < x ∧ (s₀.lefts k).start < x

theorem divide_ends {Q : Point K → Prop} (hw : s.WF) {i : Nat} (hi : i < s.nextLeft) {x : Point K}
    (hQ : Q x) (h : ∀ i < s.nextLeft, Q (s.leftEnd i)) :
    ∀ j < (s.divide i x).nextLeft, Q ((s.divide i x).leftEnd j) := by
  intro j hj
  rcases Nat.lt_succ_iff_lt_or_eq.mp hj with hj | rfl
  · by_cases hji : j = i
    · subst hji; rw [divide_leftEnd_self hw hi]; exact hQ
    · rw [divide_leftEnd_other hw hi x hj hji]; exact h j hj
  · rw [divide_leftEnd_new hw hi]; exact h i hi

theorem DetectRel.ends {context : Context K} (hc : context.Exact) {s s' : State K} (hw : s.WF)
    (sep : Separate s) {a b : Nat} (ha : a < s.nextLeft) (hb : b < s.nextLeft) {Q : Point K → Prop}
    (hab : a ≠ b) (hQ : ∀ x ∈ (s.seg a).pts, x ∈ (s.seg b).pts → Q x) (hd : DetectRel context s a b s')
    (h : ∀ i < s.nextLeft, Q (s.leftEnd i)) : ∀ i < s'.nextLeft, Q (s'.leftEnd i) := by
  obtain ⟨u, v, h1, h2, h3⟩ := hd
  have e1 := h1.shape
  have hu := e1.wf hw
  have ha' : a < u.nextLeft := e1.nextLeft ▸ ha
  have hb' : b < u.nextLeft := e1.nextLeft ▸ hb
  have na := hu.nondegenerate ha'
  have nb := hu.nondegenerate hb'
  have sepu := sep.shape e1
  rw [← e1.seg, ← e1.seg] at hQ
  have h0 : ∀ i < u.nextLeft, Q (u.leftEnd i) := by
    intro i hi; rw [e1.leftEnd]; exact h i (e1.nextLeft ▸ hi)
  suffices hv : ∀ i < v.nextLeft, Q (v.leftEnd i) by
    intro i hi
    rw [h3.shape.leftEnd]
    exact hv i (h3.shape.nextLeft ▸ hi)
  cases h2 with
  | single hr =>
    have hx := inter_of_relation hc na nb hr
    set x := context.segmentsIntersection (u.seg a) (u.seg b)
    have hm : x ∈ (u.seg a).pts ∩ (u.seg b).pts := by
      rw [hx]; rfl
    have qx := hQ _ hm.1 hm.2
    have inner : ∀ {t : State K} {i : Nat}, x ∈ (t.seg i).pts → (x ≠ (t.lefts i).start ∧ x ≠ t.leftEnd i) →
        (t.seg i).Inner x := by
      rintro t i hi ⟨h1, h2⟩
      exact ⟨hi, by rintro (e | e); exacts [h1 e, h2 e]⟩
    have second : ∀ t : State K, t.WF → b < t.nextLeft → (∀ i < t.nextLeft, Q (t.leftEnd i)) →
        ∀ j < (if x ≠ (t.lefts b).start ∧ x ≠ t.leftEnd b then t.divide b x else t).nextLeft,
        Q ((if x ≠ (t.lefts b).start ∧ x ≠ t.leftEnd b then t.divide b x else t).leftEnd j) := by
      intro t ht hbt hQt
      split
      · exact divide_ends ht hbt qx hQt
      · exact hQt
    unfold divideAt
    simp only
    split
    · next hin =>
      refine second _ (divide_wf hu ha' x (inner hm.1 hin)) (Nat.lt_succ_of_lt hb') ?_
      exact divide_ends hu ha' qx h0
    · exact second u hu hb' h0
  | overlap hr hr' hf => exact absurd (nontrivial_of_relation hc na nb hr hr') (sepu a ha' b hb' hab)
  | apart hr => exact h0

theorem handle_ends {linear : Bool} {context : Context K} (hc : context.Exact) {t : State K} {e : Ev}
    (hb : Base ε P s line p) (he : e ∈ s.queue) (hp : s.evStart e = p)
    (ht : SameShape (popped s e) t) (sep : Separate t) {s' : State K} {line' : List Nat}
    (h : eventsQueue.handle linear context t line e = .ok (s', line')) {Q : Point K → Prop}
    (hQ : ∀ a < t.nextLeft, ∀ b < t.nextLeft, a ≠ b → (t.lefts a).start ≤ p → (t.lefts b).start ≤ p →
      ∀ x ∈ (t.seg a).pts, x ∈ (t.seg b).pts → Q x)
    (h0 : ∀ i < t.nextLeft, Q (t.leftEnd i)) : ∀ i < s'.nextLeft, Q (s'.leftEnd i) := by
  have hw := hb.clock.wf
  have hwt : t.WF := ht.wf (pop_wf hw e)
  have ok : ∀ i ∈ line, i < t.nextLeft ∧ (t.lefts i).start ≤ p := fun i hi =>
    ⟨by rw [ht.nextLeft]; exact hb.lt hi, by rw [ht.start]; exact hb.start_le hi⟩
  have flagsQ : ∀ {u v : State K}, Flags u v → (∀ i < u.nextLeft, Q (u.leftEnd i)) →
      ∀ i < v.nextLeft, Q (v.leftEnd i) := by
    intro u v hf hu i hi
    rw [hf.shape.leftEnd]
    exact hu i (hf.shape.nextLeft ▸ hi)
  cases e with
  | left k =>
    have hk : k < t.nextLeft := by rw [ht.nextLeft]; exact hw.queueLeft k he
    have sk : (t.lefts k).start ≤ p := by rw [ht.start]; exact le_of_eq hp
    obtain ⟨e0, u, v, f, h1, h2⟩ := handle_left_ok h
    have hkl : k ∉ line := fun hm => ((hb.active k).mp hm).2.1 he
    have wu := f.shape.wf hwt
    have fu := flagsQ f h0
    have sepu := sep.shape f.shape
    have qu : ∀ a ∈ line, ∀ x ∈ (u.seg a).pts, x ∈ (u.seg k).pts → Q x := by
      intro a ha x hx hx'
      rw [f.shape.seg] at hx hx'
      exact hQ a (ok a ha).1 k hk (fun e => hkl (e ▸ ha)) (ok a ha).2 sk x hx hx'
    have hku : k < u.nextLeft := f.shape.nextLeft ▸ hk
    have hlu : ∀ a ∈ line, a < u.nextLeft := fun a ha => f.shape.nextLeft ▸ (ok a ha).1
    -- above
    have key1 : (∀ i < v.nextLeft, Q (v.leftEnd i)) ∧ Elems u v := by
      unfold CheckAbove at h1
      split at h1
      · next a ha =>
        have hal : a ∈ line := sweepLine.above_add hkl (e0 ▸ ha)
        have hne : k ≠ a := fun e => hkl (e ▸ hal)
        exact ⟨h1.ends hc wu sepu hku (hlu a hal) hne (fun x hx hx' => qu a hal x hx' hx) fu,
          (h1.detects hc wu hku (hlu a hal) (p := (u.lefts k).start)
            (fun z hz _ _ => wu.lo_seg hku ▸ lo_le hz)).cuts.elems⟩
      · exact ⟨flagsQ h1 fu, (Elems.refl u).tail (.flags h1.shape h1.relation)⟩
    obtain ⟨q1, ev⟩ := key1
    have wv := ev.wf wu
    obtain ⟨o, ho⟩ := ev.runs.refines wu
    have sepv := sepu.refines ho wv
    unfold CheckBelow at h2
    split at h2
    · next b hb' =>
      have hbl : b ∈ line := sweepLine.below_add hkl (e0 ▸ hb')
      have hne : b ≠ k := fun e => hkl (e ▸ hbl)
      refine h2.ends hc wv sepv (lt_of_lt_of_le (hlu b hbl) ev.nextLeft_le.1)
        (lt_of_lt_of_le hku ev.nextLeft_le.1) hne (fun x hx hx' => ?_) q1
      exact qu b hbl x (ev.runs.seg_subset wu (hlu b hbl) hx) (ev.runs.seg_subset wu hku hx')
    · exact flagsQ h2 q1
  | right r =>
    cases hcon : sweepLine.contains context t (t.rights r).left line with
    | true =>
      obtain ⟨e0, h9⟩ := handle_right_ok h hcon
      rcases h9 with ⟨a, b, ha, hb', hdet⟩ | ⟨-, hf⟩
      · have hal := sweepLine.above_mem' ha
        have hbl := sweepLine.below_mem hb'
        have hne := sweepLine.neighbours_ne hb.nodup ha hb'
        exact hdet.ends hc hwt sep (ok b hbl).1 (ok a hal).1 hne.symm
          (hQ b (ok b hbl).1 a (ok a hal).1 hne.symm (ok b hbl).2 (ok a hal).2) h0
      · exact flagsQ hf h0
    | false =>
      have : s' = t := by
        cases linear with
        | true =>
          change handleLinear context t line (.right r) = _ at h
          simp only [handleLinear, hcon, bind, Except.bind, pure, Except.pure, Bool.false_eq_true,
            if_false, Except.ok.injEq, Prod.mk.injEq] at h
          exact h.1.symm
        | false =>
          change handleCompound context t line (.right r) = _ at h
          simp only [handleCompound, hcon, bind, Except.bind, pure, Except.pure, Bool.false_eq_true,
            if_false, Except.ok.injEq, Prod.mk.injEq] at h
          exact h.1.symm
      rw [this]
      exact h0

end

end Orient.eventsQueue
