import Verif.Lemmas.Geometry

/-! Vertices and edges of contours. -/

set_option linter.unusedSectionVars false

namespace Orient.Contour

variable {K : Type} [Field K] [LinearOrder K] [IsStrictOrderedRing K]

theorem mem_vertices_of_mem_edgeList {c : Contour K} {e : Segment K} (h : e ∈ c.edgeList) :
    e.start ∈ c.vertices ∧ e.finish ∈ c.vertices := by
  unfold edgeList at h
  rw [← List.map_uncurry_zip_eq_zipWith] at h
  obtain ⟨⟨a, b⟩, hab, rfl⟩ := List.mem_map.mp h
  have := List.of_mem_zip hab
  exact ⟨by simpa using this.1, this.2⟩

theorem length_edgeList (c : Contour K) : c.edgeList.length = c.vertices.length := by
  simp [edgeList]

theorem edgeList_getElem (c : Contour K) (i : Nat) (h : i < c.edgeList.length) :
    c.edgeList[i] = ⟨c.vertices[(i + (c.vertices.length - 1)) % c.vertices.length]'(by
      rw [length_edgeList] at h; exact Nat.mod_lt _ (by omega)),
      c.vertices[i]'(by rw [length_edgeList] at h; exact h)⟩ := by
  simp [edgeList, List.getElem_rotate]

theorem exists_edge_of_mem_vertices {c : Contour K} {v : Point K} (h : v ∈ c.vertices) :
    ∃ e ∈ c.edgeList, e.finish = v := by
  obtain ⟨i, hi, rfl⟩ := List.mem_iff_getElem.mp h
  refine ⟨c.edgeList[i]'(by rw [length_edgeList]; exact hi), List.getElem_mem _, ?_⟩
  rw [edgeList_getElem]

theorem vertex_mem_pts {c : Contour K} {v : Point K} (h : v ∈ c.vertices) : v ∈ c.pts := by
  obtain ⟨e, he, rfl⟩ := exists_edge_of_mem_vertices h
  exact ⟨e, he, e.finish_mem⟩

/-- Rotating the vertices rotates the edges. -/
theorem edgeList_rotate (vs : List (Point K)) (k : Nat) :
    (⟨vs.rotate k⟩ : Contour K).edgeList = (⟨vs⟩ : Contour K).edgeList.rotate k := by
  simp only [edgeList, List.length_rotate]
  rw [List.zipWith_rotate_distrib _ _ _ _ (by simp), List.rotate_rotate, List.rotate_rotate,
    Nat.add_comm]

/-- Reversing the vertices reverses the order and the direction of edges. -/
theorem edgeList_reverse (vs : List (Point K)) :
    (⟨vs.reverse⟩ : Contour K).edgeList
      = (((⟨vs⟩ : Contour K).edgeList.rotate 1).map Segment.reverse).reverse := by
  rcases Nat.eq_zero_or_pos vs.length with h | h
  · rw [List.length_eq_zero_iff.mp h]; simp [edgeList]
  simp only [edgeList, List.length_reverse]
  rw [List.zipWith_rotate_distrib _ _ _ _ (by simp), List.rotate_rotate,
    Nat.sub_add_cancel h, List.rotate_length, List.map_zipWith]
  have e : vs.reverse.rotate (vs.length - 1) = (vs.rotate 1).reverse := by
    rcases Nat.lt_or_ge 1 vs.length with h1 | h1
    · rw [List.reverse_rotate, Nat.mod_eq_of_lt h1]
    · have : vs.length = 1 := by omega
      obtain ⟨a, rfl⟩ := List.length_eq_one_iff.mp this
      simp
  rw [e, List.zipWith_comm]
  simp only [Segment.reverse]
  rw [List.reverse_zipWith (by simp)]

theorem pts_rotate (vs : List (Point K)) (k : Nat) :
    (⟨vs.rotate k⟩ : Contour K).pts = (⟨vs⟩ : Contour K).pts := by
  ext p
  simp [pts, segsPts, edgeList_rotate]

theorem pts_reverse (vs : List (Point K)) :
    (⟨vs.reverse⟩ : Contour K).pts = (⟨vs⟩ : Contour K).pts := by
  ext p
  simp [pts, segsPts, edgeList_reverse, Segment.pts_reverse]

end Orient.Contour
