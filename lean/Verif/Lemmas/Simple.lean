import Verif.Lemmas.Orientation
import Verif.Lemmas.Contour
import Verif.Lemmas.SegmentsRel

/-! Simple contours; bounding boxes. -/

set_option linter.unusedSectionVars false

namespace Orient

variable {K : Type} [Field K] [LinearOrder K] [IsStrictOrderedRing K]

namespace Contour

theorem Simple.rotate {c : Contour K} (h : c.Simple) (k : Nat) :
    (⟨c.vertices.rotate k⟩ : Contour K).Simple where
  three := by simpa using h.three
  nodup := by simpa using h.nodup
  meet := by
    rw [edgeList_rotate]
    refine ((List.rotate_perm c.edgeList k).pairwise_iff ?_).mpr h.meet
    intro a b hab p hp
    exact ⟨(hab p ⟨hp.2, hp.1⟩).2, (hab p ⟨hp.2, hp.1⟩).1⟩

theorem Simple.reverse {c : Contour K} (h : c.Simple) :
    (⟨c.vertices.reverse⟩ : Contour K).Simple where
  three := by simpa using h.three
  nodup := by simpa using h.nodup
  meet := by
    rw [edgeList_reverse]
    refine ((List.reverse_perm _).pairwise_iff ?_).mpr ?_
    · intro a b hab p hp
      exact ⟨(hab p ⟨hp.2, hp.1⟩).2, (hab p ⟨hp.2, hp.1⟩).1⟩
    · rw [List.pairwise_map]
      refine ((List.rotate_perm c.edgeList 1).pairwise_iff ?_).mpr (h.meet.imp ?_)
      · intro a b hab p hp
        exact ⟨(hab p ⟨hp.2, hp.1⟩).2, (hab p ⟨hp.2, hp.1⟩).1⟩
      · intro a b hab p hp
        rw [Segment.pts_reverse, Segment.pts_reverse] at hp
        have := hab p hp
        exact ⟨this.1.symm, this.2.symm⟩

theorem Simple.of_sameCycle {c d : Contour K} (h : d.Simple) (hc : c.SameCycle d) : c.Simple := by
  obtain ⟨k, hk | hk⟩ := hc
  · have := h.rotate k
    rw [← hk] at this
    exact this
  · have := (h.rotate k).reverse
    simp only [← hk] at this
    exact this

theorem SameCycle.pts {c d : Contour K} (hc : c.SameCycle d) : c.pts = d.pts := by
  obtain ⟨vs⟩ := c
  obtain ⟨ws⟩ := d
  obtain ⟨k, hk | hk⟩ := hc <;> simp only at hk
  · rw [hk, pts_rotate]
  · rw [hk, pts_reverse, pts_rotate]

theorem SameCycle.refl (c : Contour K) : c.SameCycle c := ⟨0, .inl (by simp)⟩

/-- The neighbours of the least vertex of a simple contour are not collinear with it. -/
theorem Simple.leastCorner {c : Contour K} (h : c.Simple) :
    ∃ p v q, c.LeastCorner p v q ∧ Orient.cross p v q ≠ 0 := by
  obtain ⟨m, hm, hle⟩ : ∃ m ∈ c.vertices, ∀ w ∈ c.vertices, m ≤ w := by
    cases hv : c.vertices with
    | nil => have := h.three; rw [hv] at this; simp at this
    | cons a tl =>
      obtain ⟨m, hm1, hm2⟩ := Orient.contour.minIndex_spec tl [a] 0 a (by simp) (by simp)
      exact ⟨m, List.mem_of_getElem? hm1, hm2⟩
  obtain ⟨i, hi, rfl⟩ := List.mem_iff_getElem.mp hm
  have h3 := h.three
  obtain ⟨p, v, q, rest, hr⟩ : ∃ p v q rest, c.vertices.rotate (i + (c.vertices.length - 1))
      = p :: v :: q :: rest := by
    have hl : (c.vertices.rotate (i + (c.vertices.length - 1))).length = c.vertices.length :=
      List.length_rotate _ _
    match hv : c.vertices.rotate (i + (c.vertices.length - 1)) with
    | [] => rw [hv] at hl; simp at hl; omega
    | [_] => rw [hv] at hl; simp at hl; omega
    | [_, _] => rw [hv] at hl; simp at hl; omega
    | p :: v :: q :: rest => exact ⟨p, v, q, rest, rfl⟩
  have hv : v = c.vertices[i] := by
    have h1 : (c.vertices.rotate (i + (c.vertices.length - 1)))[1]'(by simp; omega) = v := by
      simp only [hr, List.getElem_cons_succ, List.getElem_cons_zero]
    rw [List.getElem_rotate] at h1
    rw [← h1]
    congr 1
    have : 1 + (i + (c.vertices.length - 1)) = i + c.vertices.length := by omega
    rw [this, Nat.add_mod_right, Nat.mod_eq_of_lt hi]
  refine ⟨p, v, q, ⟨_, rest, hr, by rw [hv]; exact hle⟩, ?_⟩
  intro hcross
  have hs := h.rotate (i + (c.vertices.length - 1))
  have hnd := hs.nodup
  have hle' : ∀ w ∈ (c.vertices.rotate (i + (c.vertices.length - 1))), v ≤ w := by
    intro w hw; rw [hv]; exact hle w (by simpa using hw)
  have hmeet := hs.meet
  simp only [hr] at hnd hmeet hle'
  have hpv : v < p := lt_of_le_of_ne (hle' p (by simp)) (by
    rintro rfl; simp at hnd)
  have hqv : v < q := lt_of_le_of_ne (hle' q (by simp)) (by
    rintro rfl; simp at hnd)
  have hpq : p ≠ q := by rintro rfl; simp at hnd
  have hedge : (⟨p :: v :: q :: rest⟩ : Contour K).edgeList
      = ⟨(p :: v :: q :: rest).getLast (by simp), p⟩ :: ⟨p, v⟩ :: ⟨v, q⟩ ::
        ((⟨p :: v :: q :: rest⟩ : Contour K).edgeList.drop 3) := by
    apply List.ext_getElem
    · simp [length_edgeList]
    · intro j h1 h2
      match j with
      | 0 =>
        rw [edgeList_getElem]
        simp only [List.getElem_cons_zero, List.getLast_eq_getElem]
        congr 2
        simp
      | 1 =>
        rw [edgeList_getElem]
        simp only [List.getElem_cons_zero, List.getElem_cons_succ]
        congr 1
        have : (1 + ((p :: v :: q :: rest).length - 1)) % (p :: v :: q :: rest).length = 0 := by
          have : 1 + ((p :: v :: q :: rest).length - 1) = (p :: v :: q :: rest).length := by
            simp; omega
          rw [this, Nat.mod_self]
        simp only [this, List.getElem_cons_zero]
      | 2 =>
        rw [edgeList_getElem]
        simp only [List.getElem_cons_zero, List.getElem_cons_succ]
        congr 1
        have : (2 + ((p :: v :: q :: rest).length - 1)) % (p :: v :: q :: rest).length = 1 := by
          have : 2 + ((p :: v :: q :: rest).length - 1) = 1 + (p :: v :: q :: rest).length := by
            simp; omega
          rw [this, Nat.add_mod_right, Nat.mod_eq_of_lt (by simp)]
        simp only [this, List.getElem_cons_succ, List.getElem_cons_zero]
      | j + 3 => simp [Nat.add_comm]
  rw [hedge] at hmeet
  have hm2 : ∀ x ∈ (⟨p, v⟩ : Segment K).pts ∩ (⟨v, q⟩ : Segment K).pts,
      (⟨p, v⟩ : Segment K).IsEndpoint x ∧ (⟨v, q⟩ : Segment K).IsEndpoint x := by
    have := (List.pairwise_cons.mp hmeet).2
    exact (List.pairwise_cons.mp this).1 ⟨v, q⟩ (by simp)
  have hc1 : Orient.cross v q p = 0 := by rw [cross_rotate]; exact hcross
  have hmem : ∀ x, x ∈ (⟨p, v⟩ : Segment K).pts ↔ x ∈ (⟨v, p⟩ : Segment K).pts := by
    intro x; rw [← Segment.pts_reverse]; rfl
  rcases lt_or_gt_of_ne hpq with hlt | hgt
  · have := (hm2 p ⟨Segment.start_mem _,
      (Segment.mem_pts_iff_of_lt (s := ⟨v, q⟩) hqv p).mpr ⟨hc1, hpv.le, hlt.le⟩⟩).2
    rcases this with h | h
    · exact hpv.ne' h
    · exact hpq h
  · have := (hm2 q ⟨(hmem q).mpr ((Segment.mem_pts_iff_of_lt (s := ⟨v, p⟩) hpv q).mpr
      ⟨by simp only; rw [cross_swap, hc1, neg_zero], hqv.le, hgt.le⟩), Segment.finish_mem _⟩).1
    rcases this with h | h
    · exact hpq h.symm
    · exact hqv.ne' h

end Contour

/-- Boxes of sets with a common point are not disjoint. -/
theorem box.not_disjointWith {a b : Box K} {S T : Set (Point K)} (ha : IsBoxOf a S)
    (hb : IsBoxOf b T) {p : Point K} (hS : p ∈ S) (hT : p ∈ T) : box.disjointWith a b = false := by
  unfold box.disjointWith
  have h1 := ha.minX_le p hS
  have h2 := ha.le_maxX p hS
  have h3 := ha.minY_le p hS
  have h4 := ha.le_maxY p hS
  have h5 := hb.minX_le p hT
  have h6 := hb.le_maxX p hT
  have h7 := hb.minY_le p hT
  have h8 := hb.le_maxY p hT
  simp only [Bool.or_eq_false_iff, decide_eq_false_iff_not, not_lt]
  refine ⟨⟨⟨?_, ?_⟩, ?_⟩, ?_⟩
  · exact h5.trans h2
  · exact h1.trans h6
  · exact h7.trans h4
  · exact h3.trans h8

theorem Context.Exact.orientation_ne {context : Context K} (hc : context.Exact) {p v q : Point K}
    (h : Orient.cross p v q ≠ 0) :
    context.angleOrientation p v q ≠ context.angleOrientation q v p := by
  have e : Orient.cross q v p = - Orient.cross p v q := by simp only [Orient.cross]; ring
  intro heq
  rcases lt_or_gt_of_ne h with h' | h'
  · rw [(hc.clockwise p v q).mpr h'] at heq
    have := (hc.clockwise q v p).mp heq.symm
    rw [e] at this; linarith
  · rw [(hc.counterclockwise p v q).mpr h'] at heq
    have := (hc.counterclockwise q v p).mp heq.symm
    rw [e] at this; linarith

end Orient
