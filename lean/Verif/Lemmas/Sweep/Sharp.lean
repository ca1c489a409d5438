import Verif.Lemmas.Sweep.Track
import Verif.Lemmas.Sweep.Corner
import Verif.Spec.Crossing

/-! Crossings of segments are reported, unless the pieces next to them are common ones. -/

set_option linter.unusedSectionVars false

namespace Orient.eventsQueue

variable {K : Type} [Field K] [LinearOrder K] [IsStrictOrderedRing K]

open Segment State

/-- Inside of segments of different operands there is a common point at which one of them goes outside
of the other operand. -/
def Sharp (s : State K) : Prop :=
  ∃ u < s.nextLeft, ∃ v < s.nextLeft, (s.lefts u).fromTest ≠ (s.lefts v).fromTest ∧
    ∃ p, (s.seg u).Inner p ∧ (s.seg v).Inner p ∧ (s.seg u).LeavesAt p (s.operand (s.lefts v).fromTest)

/-- A point of a segment near one of its ends. -/
theorem exists_near (ε : K) {x a : Point K} {t₁ t₂ : K} (h1 : t₁ < x.time ε) (h2 : x.time ε < t₂)
    (hne : a.time ε ≠ x.time ε) : ∃ b ∈ (⟨x, a⟩ : Segment K).pts, b.time ε ≠ x.time ε ∧
      t₁ ≤ b.time ε ∧ b.time ε ≤ t₂ := by
  set D := |a.time ε - x.time ε|
  have hD : 0 < D := abs_pos.mpr (sub_ne_zero.mpr hne)
  set δ := min (x.time ε - t₁) (t₂ - x.time ε)
  have hδ : 0 < δ := lt_min (by linarith) (by linarith)
  set l := min 1 (δ / D)
  have l0 : 0 < l := lt_min one_pos (div_pos hδ hD)
  have l1 : l ≤ 1 := min_le_left _ _
  have lD : l * D ≤ δ := by
    have := mul_le_mul_of_nonneg_right (min_le_right 1 (δ / D)) hD.le
    rwa [div_mul_cancel₀ _ hD.ne'] at this
  have time : (lerp x a l).time ε = x.time ε + l * (a.time ε - x.time ε) := by
    unfold lerp Point.time; ring
  have habs : |l * (a.time ε - x.time ε)| ≤ δ := by
    rw [abs_mul, abs_of_pos l0]; exact lD
  obtain ⟨k1, k2⟩ := abs_le.mp habs
  have d1 : δ ≤ x.time ε - t₁ := min_le_left _ _
  have d2 : δ ≤ t₂ - x.time ε := min_le_right _ _
  refine ⟨lerp x a l, ⟨l, l0.le, l1, rfl⟩, ?_, ?_, ?_⟩
  · rw [time]
    intro e
    have : l * (a.time ε - x.time ε) = 0 := by linarith
    rcases mul_eq_zero.mp this with h | h
    · exact l0.ne' h
    · exact sub_ne_zero.mpr hne h
  · rw [time]; linarith
  · rw [time]; linarith

/-- A crossing at which a segment goes outside of the other operand is reported. -/
theorem sweep_sharp (linear : Bool) {context : Context K} (hc : context.Exact) (stopX : K)
    {s f : State K} (h : s.Fresh) (hcl : ¬ Clash s) (hf : (sweep linear context stopX s).2 = .ok f)
    {u v : Nat} (hu : u < s.nextLeft) (hv : v < s.nextLeft)
    (huv : (s.lefts u).fromTest ≠ (s.lefts v).fromTest) {x : Point K} (iu : (s.seg u).Inner x)
    (iv : (s.seg v).Inner x) (hx : x.x ≤ stopX)
    (hl : (s.seg u).LeavesAt x (s.operand (s.lefts v).fromTest)) :
    ∃ em ∈ (sweep linear context stopX s).1, em.relation = .cross := by
  obtain ⟨a, ax, hsub, hfree⟩ := hl
  obtain ⟨ε, P, t, c, ct, hr, ht, rs⟩ := sweep_told linear hc stopX h hcl hf (by omega)
  obtain ⟨o, ho⟩ := hr.refines h.wf
  have hw := ct.wf
  have hau : a ∈ (s.seg u).pts := hsub (finish_mem _)
  obtain ⟨a1, a2, a3⟩ := (mem_pts_iff_height (c.times hu) a).mp hau
  obtain ⟨x1, x2, x3⟩ := (mem_pts_iff_height (c.times hu) x).mp iu.1
  have hne : a.time ε ≠ x.time ε := fun e => ax (Point.ext_time e (by rw [a3, x3, e]))
  obtain ⟨t₁, t₂, ht₁, ht₂, hwin⟩ := exists_window ε (x.time ε) P.toList
  replace hwin : ∀ w ∈ P, t₁ ≤ w.time ε → w.time ε ≤ t₂ → w.time ε = x.time ε :=
    fun w hw' => hwin w (Finset.mem_toList.mpr hw')
  obtain ⟨b, hb, hbx, b1, b2⟩ := exists_near ε ht₁ ht₂ hne
  have hbne : b ≠ x := fun e => hbx (by rw [e])
  have hbv : b ∉ s.operand (s.lefts v).fromTest := fun hm => hbne (hfree b hb hm)
  have hbu := hsub hb
  -- a segment which contains `b` between `x` and the next end contains `x`
  have reach : ∀ w : Segment K, w.start.time ε < w.finish.time ε → w.start ∈ P → w.finish ∈ P →
      w.start.time ε ≤ b.time ε → b.time ε ≤ w.finish.time ε →
      w.start.time ε ≤ x.time ε ∧ x.time ε ≤ w.finish.time ε := by
    intro w hlt hs hf k1 k2
    constructor
    · by_contra hn
      have hn := not_le.mp hn
      exact hn.ne' (hwin _ hs (ht₁.le.trans hn.le) (k1.trans b2))
    · by_contra hn
      have hn := not_le.mp hn
      exact hn.ne (hwin _ hf (b1.trans k2) (hn.le.trans ht₂.le))
  have back : ∀ w : Segment K, w.start ∈ P → w.finish ∈ P → w.start.time ε < x.time ε →
      x.time ε < w.finish.time ε → w.start.time ε ≤ b.time ε ∧ b.time ε ≤ w.finish.time ε := by
    intro w hs hf k1 k2
    constructor
    · by_contra hn
      have hn := not_le.mp hn
      exact k1.ne (hwin _ hs (b1.trans hn.le) (k1.le.trans ht₂.le))
    · by_contra hn
      have hn := not_le.mp hn
      exact k2.ne' (hwin _ hf (ht₁.le.trans k2.le) (hn.le.trans b2))
  obtain ⟨i, hi, rfl, mi⟩ := ho.cover u hu b hbu
  obtain ⟨j, hj, rfl, mj⟩ := ho.cover v hv x iv.1
  have si := same_of_subset (c.times hu) (ct.times hi) (ho.subset i hi (start_mem _))
    (ho.subset i hi (finish_mem _))
  have sj := same_of_subset (c.times hv) (ct.times hj) (ho.subset j hj (start_mem _))
    (ho.subset j hj (finish_mem _))
  obtain ⟨i1, i2, i3⟩ := (mem_pts_iff_height (ct.times hi) b).mp mi
  have mx : x ∈ (t.seg i).pts := by
    obtain ⟨r1, r2⟩ := reach (t.seg i) (ct.times hi) (ct.points.start i hi) (ct.points.finish i hi) i1 i2
    refine (mem_pts_iff_height (ct.times hi) x).mpr ⟨r1, r2, ?_⟩
    rw [x3]; exact si.at _
  have hns : ¬ Same ε (t.seg i) (t.seg j) := by
    intro hs
    obtain ⟨v1, v2, v3⟩ := (mem_pts_iff_height (c.times hv) x).mp iv.1
    have w1 : (s.seg (o j)).start.time ε < x.time ε := lt_of_le_of_ne v1 fun e => iv.2 (.inl
      (Point.ext_time e.symm (by rw [v3, ← e, height_start])))
    have w2 : x.time ε < (s.seg (o j)).finish.time ε := lt_of_le_of_ne v2 fun e => iv.2 (.inr
      (Point.ext_time e (by rw [v3, e, height_finish (c.times hv)])))
    obtain ⟨r1, r2⟩ := back (s.seg (o j)) (c.points.start _ hv) (c.points.finish _ hv) w1 w2
    refine hbv ⟨o j, hv, rfl, (mem_pts_iff_height (c.times hv) b).mpr ⟨r1, r2, ?_⟩⟩
    rw [i3]; exact (hs.trans sj.symm).at _
  obtain ⟨e1, e2⟩ := rs.past i hi j hj hns x mx mj hx
  -- events at the point
  have event : ∀ k < t.nextLeft, (s.seg (o k)).Inner x → (t.seg k).IsEndpoint x →
      ∃ e, t.Valid e ∧ t.evStart e = x ∧ t.leftOf e = k ∧ Amid t e := by
    rintro k hk ik (e | e)
    · refine ⟨.left k, hk, e.symm, rfl, fun e' => ik.2 (.inl ?_)⟩
      have e' : (t.lefts k).start = (t.lefts k).originalStart := e'
      rw [ho.originalStart k hk, h.originalStart _ (ho.lt k hk)] at e'
      exact e.trans e'
    · obtain ⟨h1, h2⟩ := hw.leftRight k hk
      refine ⟨.right (t.lefts k).right, h1, e.symm, h2, fun e' => ik.2 (.inr ?_)⟩
      have e' : (t.rights (t.lefts k).right).start = (t.rights (t.lefts k).right).originalStart := e'
      rw [ho.originalEnd k hk, h.right _ (ho.lt k hk), h.originalEnd _ (ho.lt k hk)] at e'
      refine e.trans (e'.trans ?_)
      change _ = s.leftEnd (o k)
      unfold State.leftEnd
      rw [h.right _ (ho.lt k hk)]
  obtain ⟨e, v1, a1, a2, a3⟩ := event i hi iu e1
  obtain ⟨e', v2, b1, b2, b3⟩ := event j hj iv e2
  have fe : t.evFromTest e = (s.lefts (o i)).fromTest := by
    unfold State.evFromTest; rw [a2]; exact ho.fromTest i hi
  have fe' : t.evFromTest e' = (s.lefts (o j)).fromTest := by
    unfold State.evFromTest; rw [b2]; exact ho.fromTest j hj
  obtain ⟨em, hem, hb, hft, hpts⟩ := ht.crossed e e' v1 v2 (by rw [fe, fe']; exact huv)
    (a1.trans b1.symm) (by rw [a1]; exact hx) a3 b3
  refine ⟨em, hem, hb.resolve_right fun hov => hbv ?_⟩
  have := ((sweep_swept linear hc stopX h hf).sound em hem).2.2.2 hov (hpts (a2.symm ▸ mi))
  have hn : (!em.fromTest) = (s.lefts (o j)).fromTest := by
    rw [hft, fe]
    revert huv
    cases (s.lefts (o i)).fromTest <;> cases (s.lefts (o j)).fromTest <;> simp
  rw [hn] at this
  exact this

end Orient.eventsQueue
