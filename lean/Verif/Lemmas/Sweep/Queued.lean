import Verif.Lemmas.Sweep.Track
import Verif.Spec.Containers

/-! The comparison of queued events is a strict total order, and divisions do not change it. -/

set_option linter.unusedSectionVars false

namespace Orient.eventsQueue

variable {K : Type} [Field K] [LinearOrder K] [IsStrictOrderedRing K]

open Segment State

/-- Directions to points after a given one are ordered by turns. -/
theorem cross_trans {p a b c : Point K} (ha : p < a) (hb : p < b) (hc : p < c)
    (h1 : 0 ≤ cross p a b) (h2 : 0 ≤ cross p b c) (h : 0 < cross p a b ∨ 0 < cross p b c) :
    0 < cross p a c := by
  rw [Point.lt_iff] at ha hb hc
  unfold cross at *
  obtain ⟨ax, eax⟩ : ∃ ax, a.x - p.x = ax := ⟨_, rfl⟩
  obtain ⟨ay, eay⟩ : ∃ ay, a.y - p.y = ay := ⟨_, rfl⟩
  obtain ⟨bx, ebx⟩ : ∃ bx, b.x - p.x = bx := ⟨_, rfl⟩
  obtain ⟨by', eby⟩ : ∃ by', b.y - p.y = by' := ⟨_, rfl⟩
  obtain ⟨cx, ecx⟩ : ∃ cx, c.x - p.x = cx := ⟨_, rfl⟩
  obtain ⟨cy, ecy⟩ : ∃ cy, c.y - p.y = cy := ⟨_, rfl⟩
  have ha : 0 < ax ∨ ax = 0 ∧ 0 < ay := by
    rcases ha with h | ⟨h, h'⟩
    · exact .inl (by linarith)
    · exact .inr ⟨by linarith, by linarith⟩
  have hb : 0 < bx ∨ bx = 0 ∧ 0 < by' := by
    rcases hb with h | ⟨h, h'⟩
    · exact .inl (by linarith)
    · exact .inr ⟨by linarith, by linarith⟩
  have hc : 0 < cx ∨ cx = 0 ∧ 0 < cy := by
    rcases hc with h | ⟨h, h'⟩
    · exact .inl (by linarith)
    · exact .inr ⟨by linarith, by linarith⟩
  rw [eax, eay, ebx, eby] at h1 h
  rw [ebx, eby, ecx, ecy] at h2
  rw [ecx, ecy] at h
  rw [eax, eay, ecx, ecy]
  have id : bx * (ax * cy - ay * cx) = ax * (bx * cy - by' * cx) + cx * (ax * by' - ay * bx) := by
    ring
  rcases hb with hb | ⟨rfl, hb⟩
  · have hax : 0 < ax := by
      rcases ha with ha | ⟨rfl, ha⟩
      · exact ha
      · have := mul_pos ha hb; linarith
    have hcx : 0 ≤ cx := hc.elim le_of_lt fun h => h.1.ge
    refine pos_of_mul_pos_right ?_ hb.le
    rw [id]
    rcases hc with hc | ⟨rfl, hc⟩
    · rcases h with h | h
      · exact add_pos_of_nonneg_of_pos (mul_nonneg hax.le h2) (mul_pos hc h)
      · exact add_pos_of_pos_of_nonneg (mul_pos hax h) (mul_nonneg hcx h1)
    · have := mul_pos hax (mul_pos hb hc)
      linarith
  · have hcx : cx = 0 := by
      rcases hc with hc | ⟨hc, -⟩
      · have := mul_pos hb hc; linarith
      · exact hc
    subst hcx
    have hcy : 0 < cy := hc.elim (fun h => absurd h (lt_irrefl _)) fun h => h.2
    have hax : 0 < ax := by
      rcases ha with ha | ⟨rfl, ha⟩
      · exact ha
      · rcases h with h | h <;> simp at h
    have := mul_pos hax hcy
    linarith

/-- The same for points before the given one. -/
theorem cross_trans' {p a b c : Point K} (ha : a < p) (hb : b < p) (hc : c < p)
    (h1 : cross p a b ≤ 0) (h2 : cross p b c ≤ 0) (h : cross p a b < 0 ∨ cross p b c < 0) :
    cross p a c < 0 := by
  have refl : ∀ q : Point K, q < p → p < ⟨2 * p.x - q.x, 2 * p.y - q.y⟩ := by
    intro q hq
    rw [Point.lt_iff] at hq ⊢
    rcases hq with h | ⟨h, h'⟩
    · exact .inl (by simp only; linarith)
    · exact .inr ⟨by simp only; linarith, by simp only; linarith⟩
  have key : ∀ q r : Point K, cross p ⟨2 * p.x - q.x, 2 * p.y - q.y⟩ ⟨2 * p.x - r.x, 2 * p.y - r.y⟩ =
      - cross p r q := by
    intro q r; unfold cross; ring
  have := cross_trans (refl c hc) (refl b hb) (refl a ha) (by rw [key]; linarith)
    (by rw [key]; linarith) (by rw [key, key]; exact h.symm.imp (by simp) (by simp))
  rw [key] at this
  linarith

/-- The turn from the first event to the second one, as it counts for the order of events. -/
def turn (s : State K) (e e' : Ev) : K :=
  if e.isLeft then cross (s.evStart e) (s.evEnd e) (s.evEnd e')
  else - cross (s.evStart e) (s.evEnd e) (s.evEnd e')

theorem keyLt_same {context : Context K} (hc : context.Exact) {s : State K} {e e' : Ev}
    (h : s.evStart e = s.evStart e') (hk : e.isLeft = e'.isLeft) :
    keyLt context s e e' = true ↔
      (turn s e e' = 0 ∧ s.evFromTest e' = true) ∨ 0 < turn s e e' := by
  have h1 := hc.counterclockwise (s.evStart e) (s.evEnd e) (s.evEnd e')
  have h2 := hc.clockwise (s.evStart e) (s.evEnd e) (s.evEnd e')
  unfold keyLt turn
  simp only [h, hk, ne_eq, not_true_eq_false, if_false]
  rw [h] at h1 h2
  obtain ⟨x, hx⟩ : ∃ x, cross (s.evStart e') (s.evEnd e) (s.evEnd e') = x := ⟨_, rfl⟩
  rw [hx] at h1 h2 ⊢
  cases ho : context.angleOrientation (s.evStart e') (s.evEnd e) (s.evEnd e') <;>
    rw [ho] at h1 h2 <;> simp only [reduceCtorEq, false_iff, true_iff, not_lt] at h1 h2
  · have h3 := h2.ne
    have h4 := h2.not_gt
    cases e'.isLeft <;> simp [h2, h3, h4]
  · have h3 := le_antisymm h1 h2
    cases e'.isLeft <;> simp [h3]
  · have h3 := h1.ne'
    have h4 := h1.not_gt
    cases e'.isLeft <;> simp [h1, h3, h4]

theorem turn_symm {s : State K} {e e' : Ev} (h : s.evStart e = s.evStart e')
    (hk : e.isLeft = e'.isLeft) : turn s e' e = - turn s e e' := by
  unfold turn
  rw [h, hk]
  split <;> (unfold cross; ring)

/-- The end of an event is on its side of the start. -/
theorem evEnd_side {s : State K} (hw : s.WF) {e : Ev} (he : s.Valid e) :
    if e.isLeft then s.evStart e < s.evEnd e else s.evEnd e < s.evStart e := by
  cases e with
  | left i => exact hw.lt i he
  | right r =>
    have := hw.lt _ (hw.rightLeft r he).1
    rw [hw.leftEnd_left he] at this
    exact this

theorem turn_trans {s : State K} (hw : s.WF) {a b c : Ev} (ha : s.Valid a) (hb : s.Valid b)
    (hc : s.Valid c) (h1 : s.evStart a = s.evStart b) (h2 : s.evStart b = s.evStart c)
    (k1 : a.isLeft = b.isLeft) (k2 : b.isLeft = c.isLeft) (t1 : 0 ≤ turn s a b)
    (t2 : 0 ≤ turn s b c) (t : 0 < turn s a b ∨ 0 < turn s b c) : 0 < turn s a c := by
  have ea := evEnd_side hw ha
  have eb := evEnd_side hw hb
  have ec := evEnd_side hw hc
  unfold turn at *
  rw [k1, k2, h1, h2] at *
  cases hk : c.isLeft
  · rw [hk] at ea eb ec t1 t2 t
    simp only [Bool.false_eq_true, if_false] at *
    have := cross_trans' ea eb ec (by linarith) (by linarith)
      (t.imp (fun h => by linarith) fun h => by linarith)
    linarith
  · rw [hk] at ea eb ec t1 t2 t
    simp only [if_true] at *
    exact cross_trans ea eb ec t1 t2 t

/-- Events which start together in one direction are of different operands. -/
theorem operands_ne {s : State K} (hw : s.WF) (hcl : ¬ Clash s) {e e' : Ev} (he : s.Valid e)
    (he' : s.Valid e') (hne : e ≠ e') (h : s.evStart e = s.evStart e') (hk : e.isLeft = e'.isLeft)
    (ht : turn s e e' = 0) : s.evFromTest e ≠ s.evFromTest e' := by
  have hlt := hw.leftOf_lt he
  have hlt' := hw.leftOf_lt he'
  intro hf
  refine hcl ⟨s.leftOf e, s.leftOf e', hlt, hlt', ?_, hf.symm, ?_⟩
  · cases e <;> cases e'
    · intro h'; exact hne (congrArg Ev.left h')
    · cases hk
    · cases hk
    · rename_i r r'
      intro h'
      refine hne (congrArg Ev.right ?_)
      simp only [State.leftOf] at h'
      rw [← (hw.rightLeft r he).2, h', (hw.rightLeft r' he').2]
  · rw [overlapping_iff hw hlt hlt']
    cases e <;> cases e'
    · rename_i i j
      have h : (s.lefts i).start = (s.lefts j).start := h
      have ht : cross (s.lefts i).start (s.leftEnd i) (s.leftEnd j) = 0 := ht
      refine ⟨⟨?_, ht⟩, ?_, ?_⟩
      · change cross (s.lefts i).start (s.leftEnd i) (s.lefts j).start = 0
        rw [← h]; unfold cross; ring
      · change (s.lefts i).start < s.leftEnd j
        rw [h]; exact hw.lt j hlt'
      · change (s.lefts j).start < s.leftEnd i
        rw [← h]; exact hw.lt i hlt
    · cases hk
    · cases hk
    · rename_i r r'
      have h : (s.rights r).start = (s.rights r').start := h
      have e1 := hw.leftEnd_left he
      have e2 := hw.leftEnd_left he'
      obtain ⟨i, ei⟩ : ∃ i, (s.rights r).left = i := ⟨_, rfl⟩
      obtain ⟨j, ej⟩ : ∃ j, (s.rights r').left = j := ⟨_, rfl⟩
      simp only [State.leftOf, ei, ej] at e1 e2 hlt hlt' ⊢
      have ht : - cross (s.rights r).start (s.lefts (s.rights r).left).start
        (s.lefts (s.rights r').left).start = 0 := ht
      rw [ei, ej, ← e1] at ht
      refine ⟨⟨?_, ?_⟩, ?_, ?_⟩
      · change cross (s.lefts i).start (s.leftEnd i) (s.lefts j).start = 0
        rw [← ht]; unfold cross; ring
      · change cross (s.lefts i).start (s.leftEnd i) (s.leftEnd j) = 0
        rw [e2, ← h, ← e1]; unfold cross; ring
      · rw [e2, ← h, ← e1]; exact hw.lt i hlt
      · rw [e1, h, ← e2]; exact hw.lt j hlt'

theorem keyLt_total {context : Context K} (hc : context.Exact) {s : State K} (hw : s.WF)
    (hcl : ¬ Clash s) {e e' : Ev} (he : s.Valid e) (he' : s.Valid e') (hne : e ≠ e') :
    keyLt context s e e' = !keyLt context s e' e := by
  by_cases h : s.evStart e = s.evStart e'
  · by_cases hk : e.isLeft = e'.isLeft
    · rw [Bool.eq_iff_iff, Bool.not_eq_true', ← Bool.not_eq_true, keyLt_same hc h hk,
        keyLt_same hc h.symm hk.symm, turn_symm h hk]
      rcases lt_trichotomy (turn s e e') 0 with ht | ht | ht
      · simp [ht, ht.ne, ht.not_gt]
      · have := operands_ne hw hcl he he' hne h hk ht
        revert this
        cases s.evFromTest e <;> cases s.evFromTest e' <;> simp [ht]
      · simp [ht, ht.ne', ht.not_gt]
    · rw [keyLt_of_kinds context s h hk, keyLt_of_kinds context s h.symm (Ne.symm hk)]
      revert hk
      cases e.isLeft <;> cases e'.isLeft <;> simp
  · rw [keyLt_of_ne context s h, keyLt_of_ne context s (Ne.symm h)]
    rcases lt_or_gt_of_ne h with h | h
    · simp [h, h.le]
    · simp [h, h.le]

theorem keyLt_trans {context : Context K} (hc : context.Exact) {s : State K} (hw : s.WF)
    (hcl : ¬ Clash s) {a b c : Ev} (ha : s.Valid a) (hb : s.Valid b) (hc' : s.Valid c) (hab : a ≠ b)
    (hbc : b ≠ c) (h1 : keyLt context s a b = true) (h2 : keyLt context s b c = true) :
    keyLt context s a c = true := by
  obtain ⟨s1, k1⟩ := keyLt_prec h1
  obtain ⟨s2, k2⟩ := keyLt_prec h2
  by_cases e : s.evStart a = s.evStart c
  · have e1 : s.evStart a = s.evStart b := le_antisymm s1 (e ▸ s2)
    have e2 : s.evStart b = s.evStart c := e1 ▸ e
    by_cases hk : a.isLeft = c.isLeft
    · have hk1 : a.isLeft = b.isLeft := by
        by_contra hn
        rw [keyLt_of_kinds context s e1 hn] at h1
        have := k2 e2 h1
        exact hn (hk.trans (this.trans h1.symm))
      have hk2 : b.isLeft = c.isLeft := hk1 ▸ hk
      rw [keyLt_same hc e1 hk1] at h1
      rw [keyLt_same hc e2 hk2] at h2
      rw [keyLt_same hc e hk]
      right
      rcases h1 with ⟨z1, f1⟩ | h1
      · rcases h2 with ⟨z2, f2⟩ | h2
        · exact absurd (f1.trans f2.symm) (operands_ne hw hcl hb hc' hbc e2 hk2 z2)
        · exact turn_trans hw ha hb hc' e1 e2 hk1 hk2 z1.ge h2.le (.inr h2)
      · rcases h2 with ⟨z2, f2⟩ | h2
        · exact turn_trans hw ha hb hc' e1 e2 hk1 hk2 h1.le z2.ge (.inl h1)
        · exact turn_trans hw ha hb hc' e1 e2 hk1 hk2 h1.le h2.le (.inl h1)
    · rw [keyLt_of_kinds context s e hk]
      cases hl : a.isLeft
      · rw [hl] at hk
        revert hk
        cases c.isLeft <;> simp
      · exact k2 e2 (k1 e1 hl)
  · rw [keyLt_of_ne context s e, decide_eq_true_eq]
    exact lt_of_le_of_ne (s1.trans s2) e

theorem strictOn {context : Context K} (hc : context.Exact) {s : State K} (hw : s.WF)
    (hcl : ¬ Clash s) {l : List Ev} (hl : ∀ e ∈ l, s.Valid e) :
    StrictOn (keyLt context s) l :=
  ⟨fun a ha b hb hab => keyLt_total hc hw hcl (hl a ha) (hl b hb) hab,
    fun a ha b hb c hc' hab hbc _ h1 h2 => keyLt_trans hc hw hcl (hl a ha) (hl b hb) (hl c hc') hab
      hbc h1 h2⟩

/-! ### divisions -/

/-- The ends of events move towards their starts. -/
theorem divide_evEnd {s : State K} (hw : s.WF) {i : Nat} (hi : i < s.nextLeft) {p : Point K}
    (hp : (s.seg i).Inner p) {e : Ev} (he : s.Valid e) :
    ∃ t : K, 0 < t ∧ (s.divide i p).evEnd e = lerp (s.evStart e) (s.evEnd e) t := by
  have same : ∀ a b : Point K, b = lerp a b 1 := fun a b => by simp [lerp]
  obtain ⟨⟨t, h0, h1, ht⟩, hn⟩ := hp
  have ht : p = lerp (s.lefts i).start (s.leftEnd i) t := ht
  have t0 : 0 < t := lt_of_le_of_ne h0 fun e => hn (.inl (by rw [ht, ← e]; simp [lerp, State.seg]))
  have t1 : t < 1 := lt_of_le_of_ne h1 fun e => hn (.inr (by rw [ht, e]; simp [lerp, State.seg]))
  cases e with
  | left j =>
    by_cases hji : j = i
    · subst hji
      exact ⟨t, t0, (divide_leftEnd_self hw hi p).trans ht⟩
    · exact ⟨1, one_pos, (divide_leftEnd_other hw hi p he hji).trans (same _ _)⟩
  | right r =>
    by_cases hr : r = (s.lefts i).right
    · subst hr
      refine ⟨1 - t, by linarith, ?_⟩
      simp only [State.evEnd, State.evStart]
      rw [divide_rights_self hw hi p, divide_lefts_new hw hi p, (hw.leftRight i hi).2, ht]
      simp only [lerp, State.leftEnd, Point.mk.injEq]
      exact ⟨by ring, by ring⟩
    · refine ⟨1, one_pos, ?_⟩
      simp only [State.evEnd, State.evStart]
      rw [divide_rights_other hw hi p he hr, divide_start hw hi p (hw.rightLeft r he).1]
      exact same _ _

theorem keyLt_divide {context : Context K} (hc : context.Exact) {s : State K} (hw : s.WF) {i : Nat}
    (hi : i < s.nextLeft) {p : Point K} (hp : (s.seg i).Inner p) {e e' : Ev} (he : s.Valid e)
    (he' : s.Valid e') : keyLt context (s.divide i p) e e' = keyLt context s e e' := by
  have key : ∀ x, s.Valid x → (s.divide i p).evStart x = s.evStart x ∧
      (s.divide i p).evFromTest x = s.evFromTest x := by
    intro x hx
    cases x with
    | left j => exact ⟨divide_start hw hi p hx, divide_fromTest hw hi p hx⟩
    | right r =>
      refine ⟨divide_right_start hw hi p hx, ?_⟩
      simp only [State.evFromTest, State.leftOf]
      by_cases hr : r = (s.lefts i).right
      · subst hr
        rw [divide_rights_self hw hi p, divide_lefts_new hw hi p, (hw.leftRight i hi).2]
      · rw [divide_rights_other hw hi p hx hr, divide_fromTest hw hi p (hw.rightLeft r hx).1]
  by_cases h : s.evStart e = s.evStart e'
  · have h' : (s.divide i p).evStart e = (s.divide i p).evStart e' := by
      rw [(key e he).1, (key e' he').1, h]
    by_cases hk : e.isLeft = e'.isLeft
    · obtain ⟨t, t0, et⟩ := divide_evEnd hw hi hp he
      obtain ⟨u, u0, eu⟩ := divide_evEnd hw hi hp he'
      have ht : turn (s.divide i p) e e' = t * u * turn s e e' := by
        unfold turn
        rw [et, eu, (key e he).1, ← h]
        split <;> (unfold cross lerp; ring)
      rw [Bool.eq_iff_iff, keyLt_same hc h hk, keyLt_same hc h' hk, ht, (key e' he').2]
      have hpos := mul_pos t0 u0
      rw [mul_pos_iff_of_pos_left hpos, mul_eq_zero, or_iff_right hpos.ne']
    · rw [keyLt_of_kinds context _ h hk, keyLt_of_kinds context _ h' hk]
  · have h' : (s.divide i p).evStart e ≠ (s.divide i p).evStart e' := by
      rw [(key e he).1, (key e' he').1]; exact h
    rw [keyLt_of_ne context _ h, keyLt_of_ne context _ h', (key e he).1, (key e' he').1]

theorem keyLt_shape {context : Context K} {s t : State K} (h : SameShape s t) (e e' : Ev) :
    keyLt context t e e' = keyLt context s e e' := by
  have ends : ∀ x, t.evEnd x = s.evEnd x := by
    intro x
    cases x with
    | left i => exact h.leftEnd i
    | right r => simp only [State.evEnd, h.rights, h.start]
  have test : ∀ x, t.evFromTest x = s.evFromTest x := by
    intro x
    simp only [State.evFromTest, SameShape.leftOf h, h.fromTest]
  unfold keyLt
  rw [SameShape.evStart h, SameShape.evStart h, ends, ends, test]

/-! ### what is popped -/

/-- The event preferred by the model is the least one. -/
theorem peek?_least {context : Context K} (hc : context.Exact) {s : State K} (hw : s.WF)
    (hcl : ¬ Clash s) {e : Ev} (he : e ∈ s.queue)
    (hl : ∀ e' ∈ s.queue, e' ≠ e → keyLt context s e e' = true) : peek? context s = some e := by
  have key : ∀ (l : List Ev) (best : Ev), (∀ x ∈ best :: l, x ∈ s.queue) → e ∈ best :: l →
      least context s best l = e := by
    intro l
    induction l with
    | nil =>
      intro best _ hm
      rw [List.mem_singleton] at hm
      rw [hm]; rfl
    | cons x l ih =>
      intro best hq hm
      rw [least]
      refine ih _ (fun y hy => ?_) ?_
      · rcases List.mem_cons.mp hy with rfl | hy
        · split
          · exact hq x (by simp)
          · exact hq best (by simp)
        · exact hq y (by simp [hy])
      · rcases List.mem_cons.mp hm with rfl | hm
        · by_cases hx : x = e
          · subst hx; simp
          · have := keyLt_total hc hw hcl (hw.valid_of_mem (hq x (by simp))) (hw.valid_of_mem he) hx
            rw [hl x (hq x (by simp)) hx] at this
            simp [this]
        · rcases List.mem_cons.mp hm with rfl | hm
          · by_cases hb : best = e
            · subst hb; simp
            · simp [hl best (hq best (by simp)) hb]
          · exact List.mem_cons_of_mem _ hm
  unfold peek?
  split
  · next hq => rw [hq] at he; cases he
  · next x l hq => rw [key l x (by rw [hq]; exact fun _ h => h) (hq ▸ he)]

end Orient.eventsQueue
