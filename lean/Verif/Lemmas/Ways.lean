import Verif.Lemmas.Sweep.Turns
import Verif.Lemmas.Sweep.Complete
import Verif.Lemmas.SimpleEdges

/-! Directions of contours. -/

set_option linter.unusedSectionVars false

namespace Orient

variable {K : Type} [Field K] [LinearOrder K] [IsStrictOrderedRing K]

theorem atMostTwoWays_of {T : Set (Point K)} {p u v : Point K}
    (h : ∀ a, a ≠ p → (⟨p, a⟩ : Segment K).pts ⊆ T → SameRay p u a ∨ SameRay p v a) :
    AtMostTwoWays T p := by
  intro a b c ha hb hc sa sb sc
  have key : ∀ {w x y : Point K}, x ≠ p → SameRay p w x → SameRay p w y →
      SharesPiece (⟨p, x⟩ : Segment K).pts (⟨p, y⟩ : Segment K).pts := fun hx h1 h2 =>
    sharesPiece_of_nontrivial ((h1.symm.trans h2).nontrivial hx)
  rcases h a ha sa with h1 | h1 <;> rcases h b hb sb with h2 | h2 <;> rcases h c hc sc with h3 | h3
  · exact .inl (key ha h1 h2)
  · exact .inl (key ha h1 h2)
  · exact .inr (.inl (key ha h1 h3))
  · exact .inr (.inr (key hb h2 h3))
  · exact .inr (.inr (key hb h2 h3))
  · exact .inr (.inl (key ha h1 h3))
  · exact .inl (key ha h1 h2)
  · exact .inl (key ha h1 h2)

theorem Contour.Simple.ends_of_ne {c : Contour K} (h : c.Simple) {e f : Segment K}
    (he : e ∈ c.edgeList) (hf : f ∈ c.edgeList) (hne : e ≠ f) {p : Point K} (hpe : e.IsEndpoint p)
    (hpf : f.IsEndpoint p) : (p = e.finish ∧ p = f.start) ∨ (p = f.finish ∧ p = e.start) := by
  obtain ⟨i, hi, rfl⟩ := List.mem_iff_getElem.mp he
  obtain ⟨j, hj, rfl⟩ := List.mem_iff_getElem.mp hf
  rcases h.next_of_common (List.getElem?_eq_getElem hi) (List.getElem?_eq_getElem hj)
    (fun e => hne (by simp only [e])) hpe hpf with k | k
  · exact .inl k.2
  · exact .inr k.2

/-- A simple contour leaves each of its points in at most two directions. -/
theorem Contour.Simple.atMostTwoWays {c : Contour K} (h : c.Simple) (p : Point K) :
    AtMostTwoWays c.pts p := by
  have germ : ∀ a, a ≠ p → (⟨p, a⟩ : Segment K).pts ⊆ c.pts → ∃ e ∈ c.edgeList, ∃ x, x ≠ p ∧
      SameRay p a x ∧ p ∈ e.pts ∧ x ∈ e.pts := by
    intro a ha hs
    obtain ⟨e, he, x, hx, hxa, hp, hxe⟩ := exists_germ_of_subset ha.symm hs
    exact ⟨e, he, x, hx, sameRay_of_mem hx hxa, hp, hxe⟩
  have meet : ∀ e ∈ c.edgeList, ∀ f ∈ c.edgeList, p ∈ e.pts → p ∈ f.pts → e ≠ f → e.IsEndpoint p := by
    intro e he f hf h1 h2 hne
    obtain ⟨i, hi, rfl⟩ := List.mem_iff_getElem.mp he
    obtain ⟨j, hj, rfl⟩ := List.mem_iff_getElem.mp hf
    have m := List.pairwise_iff_getElem.mp h.meet
    rcases lt_trichotomy i j with hij | hij | hij
    · exact (m i j hi hj hij p ⟨h1, h2⟩).1
    · exact absurd (by simp only [hij]) hne
    · exact (m j i hj hi hij p ⟨h2, h1⟩).2
  by_cases hin : ∃ e ∈ c.edgeList, e.Inner p
  · obtain ⟨e, he, ie⟩ := hin
    obtain ⟨n1, n2, k, hk, ek⟩ := ie.opposite
    refine atMostTwoWays_of (u := e.start) (v := e.finish) fun a ha hs => ?_
    obtain ⟨f, hf, x, hx, ray, hp, hxf⟩ := germ a ha hs
    have : e = f := by
      by_contra hne
      exact ie.2 (meet e he f hf ie.1 hp hne)
    subst this
    by_cases hr : SameRay p e.start x
    · exact .inl (hr.trans ray.symm)
    · have hcol : cross p e.start x = 0 := by
        obtain ⟨s, -, -, rfl⟩ := hp
        obtain ⟨t, -, -, rfl⟩ := hxf
        simp only [cross, lerp]; ring
      obtain ⟨j, hj, ej⟩ := opposite_of_cross n1 hx hcol hr
      refine .inr (SameRay.trans ?_ ray.symm)
      rw [ek, ej]
      exact sameRay_of_opposite hk hj
  · have hend : ∀ e ∈ c.edgeList, p ∈ e.pts → e.IsEndpoint p := by
      intro e he hp
      by_contra hn
      exact hin ⟨e, he, hp, hn⟩
    obtain ⟨u, hu⟩ : ∃ u, ∀ e ∈ c.edgeList, e.start = p → e.finish = u := by
      by_cases hex : ∃ e ∈ c.edgeList, e.start = p
      · obtain ⟨e, he, e1⟩ := hex
        refine ⟨e.finish, fun f hf f1 => ?_⟩
        by_contra hne
        rcases h.ends_of_ne he hf (fun e => hne (by rw [e])) (.inl e1.symm) (.inl f1.symm) with k | k
        · exact h.nondegenerate he (e1.trans k.1)
        · exact h.nondegenerate hf (f1.trans k.1)
      · exact ⟨p, fun e he e1 => absurd ⟨e, he, e1⟩ hex⟩
    obtain ⟨v, hv⟩ : ∃ v, ∀ e ∈ c.edgeList, e.finish = p → e.start = v := by
      by_cases hex : ∃ e ∈ c.edgeList, e.finish = p
      · obtain ⟨e, he, e1⟩ := hex
        refine ⟨e.start, fun f hf f1 => ?_⟩
        by_contra hne
        rcases h.ends_of_ne he hf (fun e => hne (by rw [e])) (.inr e1.symm) (.inr f1.symm) with k | k
        · exact h.nondegenerate hf (k.2.symm.trans f1.symm)
        · exact h.nondegenerate he (k.2.symm.trans e1.symm)
      · exact ⟨p, fun e he e1 => absurd ⟨e, he, e1⟩ hex⟩
    refine atMostTwoWays_of (u := u) (v := v) fun a ha hs => ?_
    obtain ⟨f, hf, x, hx, ray, hp, hxf⟩ := germ a ha hs
    rcases hend f hf hp with e | e
    · refine .inl (SameRay.trans (sameRay_of_mem hx ?_) ray.symm)
      rw [← hu f hf e.symm, e]
      exact hxf
    · refine .inr (SameRay.trans (sameRay_of_mem hx ?_) ray.symm)
      rw [← hv f hf e.symm, e]
      rw [← Segment.pts_reverse] at hxf
      exact hxf

/-- An inner point of a part of a segment is an inner point of the segment. -/
theorem Segment.Inner.of_subset {u v : Segment K} {p : Point K} (h : v.Inner p)
    (hs : v.pts ⊆ u.pts) : u.Inner p := by
  refine ⟨hs h.1, fun hend => ?_⟩
  obtain ⟨h1, h2, k, hk, ek⟩ := h.opposite
  have key : ∀ {a b : Point K}, p = a → v.pts ⊆ (⟨a, b⟩ : Segment K).pts → False := by
    intro a b e hv
    subst e
    have r1 := sameRay_of_mem h1 (hv v.start_mem)
    have r2 := sameRay_of_mem h2 (hv v.finish_mem)
    obtain ⟨m, hm, em⟩ := r1.symm.trans r2
    have : lerp p v.start m = lerp p v.start (-k) := em.symm.trans ek
    have := lerp_injective h1.symm this
    linarith
  rcases hend with e | e
  · exact key e hs
  · exact key e (b := u.start) (hs.trans (Segment.pts_reverse u).symm.subset)

namespace eventsQueue

open State processing Props

/-- `process_open_linear_queue` answers `CROSS` only if the operands cross; crossings at which the
goal has at most two directions, and those in segments of both operands, are found. -/
theorem runOpenLinear_cross {context : Context K} (hc : context.Exact) {s : State K}
    {G T : List (Segment K)} (h : Registered s G T)
    (vG : SegmentsValid G) (vT : SegmentsValid T) {mg mt : K}
    (hg : ∀ x ∈ segsPts G, x.x ≤ mg) (ht : ∀ x ∈ segsPts T, x.x ≤ mt) {r : Relation}
    (hr : runOpenLinear context s (min mg mt) = .ok r) (hns : ¬ SharesPiece (segsPts T) (segsPts G)) :
    (r = .cross → ∃ p, CrossesAt (segsPts T) (segsPts G) p) ∧
    ((∃ p, CrossesAt (segsPts T) (segsPts G) p ∧
        (AtMostTwoWays (segsPts G) p ∨ ∃ u ∈ T, ∃ v ∈ G, u.Inner p ∧ v.Inner p)) →
      r ≠ .touch ∧ r ≠ .disjoint) := by
  unfold runOpenLinear at hr
  have hcl := h.no_clash vG vT
  obtain ⟨f, hf⟩ : ∃ f, (sweep true context (min mg mt) s).2 = .ok f := by
    rcases sweep_ends true hc (min mg mt) h.fresh.wf h.fresh.length with
      ⟨ems, d, -, -, -, h4⟩ | ⟨-, h2⟩
    · exact ⟨_, h4⟩
    · exact absurd h2 hcl
  rw [← h.goalPts] at hg hns ⊢
  rw [← h.testPts] at ht hns ⊢
  obtain ⟨t1, t2⟩ := sweep_turns hc (min mg mt) h.fresh hcl hns hf
  obtain ⟨r', hr', c1, c2, c3, c4, c5, c6, c7⟩ :=
    C28_open_linear context (sweep true context (min mg mt) s).1 f
  rw [show ((sweep true context (min mg mt) s).1, Except.ok f) = sweep true context (min mg mt) s from
    by rw [← hf]] at hr'
  rw [hr'] at hr
  obtain rfl := Except.ok.inj hr
  refine ⟨fun e => ?_, ?_⟩
  · obtain ⟨-, -, -, em, hem, hx⟩ := c5.mp e
    exact t1 em hem hx
  · rintro ⟨p, hp, h2⟩
    have hx : p.x ≤ min mg mt := by
      obtain ⟨a, b, u, v, k1, -, k3, -⟩ := id hp
      exact le_min (hg p (k3 (Segment.start_mem _))) (ht p (k1 (Segment.start_mem _)))
    obtain ⟨em, hem, hb⟩ : ∃ em ∈ (sweep true context (min mg mt) s).1, Big em.relation := by
      rcases h2 with h2 | ⟨u, hu, v, hv, iu, iv⟩
      · exact t2 p hp h2 hx
      · have find : ∀ (b : Bool) (l : List (Segment K)), ((s.segs b).map Segment.pts).Perm (l.map Segment.pts) →
            ∀ w ∈ l, w.Inner p → ∃ i < s.nextLeft, (s.lefts i).fromTest = b ∧ (s.seg i).Inner p := by
          intro b l hl w hw iw
          obtain ⟨w', hw', e⟩ := List.mem_map.mp (hl.symm.subset (List.mem_map.mpr ⟨w, hw, rfl⟩))
          obtain ⟨i, hi, hb, rfl⟩ := mem_segs.mp hw'
          exact ⟨i, hi, hb, iw.of_subset e.symm.subset⟩
        obtain ⟨i, hi, bi, ii⟩ := find true T h.test u hu iu
        obtain ⟨j, hj, bj, ij⟩ := find false G h.goal v hv iv
        refine sweep_crossed true hc _ h.fresh hcl hf hi hj (by rw [bi, bj]; simp) ii ij hx fun hs => ?_
        refine hns (hs.mono ?_ ?_)
        · rw [← bi]; exact seg_subset_operand s hi
        · rw [← bj]; exact seg_subset_operand s hj
    refine ⟨fun e => ?_, fun e => ?_⟩
    · obtain ⟨-, -, k, -⟩ := c6.mp e
      rcases hb with hb | hb
      · exact (k em hem).2 hb
      · exact (k em hem).1 hb
    · have := (c7.mp e).2.2 em hem
      rcases hb with hb | hb <;> rw [this] at hb <;> cases hb

end eventsQueue

end Orient
