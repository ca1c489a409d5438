import Verif.Spec.Linear
import Verif.Lemmas.Simple
import Verif.Lemmas.Germ

/-! Edges of simple contours. -/

set_option linter.unusedSectionVars false

namespace Orient.Contour

variable {K : Type} [Field K] [LinearOrder K] [IsStrictOrderedRing K]

open Segment

theorem edge_succ (c : Contour K) (i : Nat) (h : i + 1 < c.vertices.length) :
    c.edgeList[i + 1]? = some ⟨c.vertices[i], c.vertices[i + 1]⟩ := by
  rw [List.getElem?_eq_getElem (by rw [length_edgeList]; exact h), edgeList_getElem]
  congr 3
  have : i + 1 + (c.vertices.length - 1) = i + c.vertices.length := by omega
  rw [this, Nat.add_mod_right, Nat.mod_eq_of_lt (by omega)]

theorem edge_zero (c : Contour K) (h : 0 < c.vertices.length) :
    c.edgeList[0]? = some ⟨c.vertices[c.vertices.length - 1], c.vertices[0]⟩ := by
  rw [List.getElem?_eq_getElem (by rw [length_edgeList]; exact h), edgeList_getElem]
  congr 3
  rw [Nat.zero_add, Nat.mod_eq_of_lt (by omega)]

theorem Simple.nondegenerate {c : Contour K} (h : c.Simple) {e : Segment K} (he : e ∈ c.edgeList) :
    e.Nondegenerate := by
  obtain ⟨i, hi, rfl⟩ := List.mem_iff_getElem.mp he
  rw [edgeList_getElem]
  have h3 := h.three
  intro e
  simp only at e
  have := (List.Nodup.getElem_inj_iff h.nodup).mp e
  rw [length_edgeList] at hi
  rcases Nat.eq_zero_or_pos i with rfl | hpos
  · rw [Nat.zero_add, Nat.mod_eq_of_lt (by omega)] at this
    omega
  · have e2 : i + (c.vertices.length - 1) = (i - 1) + c.vertices.length := by omega
    rw [e2, Nat.add_mod_right, Nat.mod_eq_of_lt (by omega)] at this
    omega

/-- Segments which meet only in common endpoints share at most one point. -/
theorem _root_.Orient.Segment.inter_subsingleton {a b : Segment K}
    (h : ∀ p ∈ a.pts ∩ b.pts, a.IsEndpoint p ∧ b.IsEndpoint p) :
    (a.pts ∩ b.pts).Subsingleton := by
  intro p hp q hq
  by_contra hne
  have hm : lerp p q (1 / 2) ∈ a.pts ∩ b.pts :=
    ⟨lerp_mem_pts hp.1 hq.1 (by norm_num) (by norm_num),
      lerp_mem_pts hp.2 hq.2 (by norm_num) (by norm_num)⟩
  have h1 := (h p hp).1
  have h2 := (h q hq).1
  have h3 := (h _ hm).1
  have e0 : lerp p q (1 / 2) ≠ p := by
    intro e
    have : lerp p q (1 / 2) = lerp p q 0 := by rw [e, lerp_zero]
    have := lerp_injective hne this
    norm_num at this
  have e1 : lerp p q (1 / 2) ≠ q := by
    intro e
    have : lerp p q (1 / 2) = lerp p q 1 := by rw [e, lerp_one]
    have := lerp_injective hne this
    norm_num at this
  rcases h1 with h1 | h1 <;> rcases h2 with h2 | h2 <;> rcases h3 with h3 | h3
  all_goals first
    | exact hne (h1.trans h2.symm)
    | exact e0 (h3.trans h1.symm)
    | exact e1 (h3.trans h2.symm)

theorem Simple.valid {c : Contour K} (h : c.Simple) : SegmentsValid c.edgeList :=
  ⟨fun _ he => h.nondegenerate he, h.meet.imp (fun hab => Segment.inter_subsingleton hab)⟩

/-- Edges `i` and `j` are consecutive. -/
def Next (c : Contour K) (i j : Nat) : Prop :=
  i + 1 = j ∧ j < c.vertices.length ∨ i + 1 = c.vertices.length ∧ j = 0

theorem Next.edges {c : Contour K} {i j : Nat} (h : c.Next i j) (h2 : 2 ≤ c.vertices.length) :
    ∃ p v n, c.edgeList[i]? = some ⟨p, v⟩ ∧ c.edgeList[j]? = some ⟨v, n⟩ := by
  have first : ∀ i (h : i < c.vertices.length), ∃ p, c.edgeList[i]? = some ⟨p, c.vertices[i]⟩ := by
    intro i h
    cases i with
    | zero => exact ⟨_, edge_zero c h⟩
    | succ i => exact ⟨_, edge_succ c i h⟩
  rcases h with ⟨rfl, h⟩ | ⟨h, rfl⟩
  · obtain ⟨p, hp⟩ := first i (by omega)
    exact ⟨p, _, _, hp, edge_succ c i h⟩
  · obtain ⟨p, hp⟩ := first i (by omega)
    refine ⟨p, _, c.vertices[0], hp, ?_⟩
    rw [edge_zero c (by omega)]
    congr 3
    omega

theorem exists_next (c : Contour K) {i : Nat} (h : i < c.vertices.length) : ∃ j, c.Next i j := by
  by_cases h' : i + 1 < c.vertices.length
  · exact ⟨i + 1, .inl ⟨rfl, h'⟩⟩
  · exact ⟨0, .inr ⟨by omega, rfl⟩⟩

theorem exists_prev (c : Contour K) {j : Nat} (h : j < c.vertices.length) : ∃ i, c.Next i j := by
  cases j with
  | zero => exact ⟨c.vertices.length - 1, .inr ⟨by omega, rfl⟩⟩
  | succ j => exact ⟨j, .inl ⟨rfl, h⟩⟩

/-- The edge which ends in the `i`-th vertex. -/
theorem edge_finish (c : Contour K) {i : Nat} {e : Segment K} (h : c.edgeList[i]? = some e) :
    c.vertices[i]? = some e.finish := by
  obtain ⟨hi, rfl⟩ := List.getElem?_eq_some_iff.mp h
  rw [edgeList_getElem, List.getElem?_eq_getElem]

theorem edge_start (c : Contour K) {i j : Nat} (h2 : 2 ≤ c.vertices.length) (hn : c.Next i j)
    {e : Segment K} (h : c.edgeList[j]? = some e) : c.vertices[i]? = some e.start := by
  obtain ⟨p, v, n, h1, h3⟩ := hn.edges h2
  rw [h] at h3
  cases h3
  exact edge_finish c h1

/-- Different edges of a simple contour with a common endpoint are consecutive. -/
theorem Simple.next_of_common {c : Contour K} (hc : c.Simple) {i j : Nat} {e f : Segment K}
    (he : c.edgeList[i]? = some e) (hf : c.edgeList[j]? = some f) (hij : i ≠ j) {p : Point K}
    (hpe : e.IsEndpoint p) (hpf : f.IsEndpoint p) :
    (c.Next i j ∧ p = e.finish ∧ p = f.start) ∨ (c.Next j i ∧ p = f.finish ∧ p = e.start) := by
  have h2 : 2 ≤ c.vertices.length := by have := hc.three; omega
  have hi : i < c.vertices.length := by
    rw [← length_edgeList]; exact (List.getElem?_eq_some_iff.mp he).1
  have hj : j < c.vertices.length := by
    rw [← length_edgeList]; exact (List.getElem?_eq_some_iff.mp hf).1
  obtain ⟨i', hi'⟩ := c.exists_prev hi
  obtain ⟨j', hj'⟩ := c.exists_prev hj
  have uniq : ∀ {a b : Nat} {v : Point K}, c.vertices[a]? = some v → c.vertices[b]? = some v →
      a = b := by
    intro a b v ha hb
    obtain ⟨ha, rfl⟩ := List.getElem?_eq_some_iff.mp ha
    obtain ⟨hb, e⟩ := List.getElem?_eq_some_iff.mp hb
    exact ((List.Nodup.getElem_inj_iff hc.nodup).mp e).symm
  have e1 := edge_finish c he
  have e2 := edge_start c h2 hi' he
  have f1 := edge_finish c hf
  have f2 := edge_start c h2 hj' hf
  rcases hpe with rfl | rfl <;> rcases hpf with hpf | hpf
  · -- both start
    rw [← hpf] at f2
    have : i' = j' := uniq e2 f2
    subst this
    exfalso
    rcases hi' with ⟨h, -⟩ | ⟨h, h'⟩ <;> rcases hj' with ⟨g, -⟩ | ⟨g, g'⟩ <;> omega
  · rw [← hpf] at f1
    have : i' = j := uniq e2 f1
    subst this
    exact .inr ⟨hi', hpf, rfl⟩
  · rw [← hpf] at f2
    have : i = j' := uniq e1 f2
    subst this
    exact .inl ⟨hj', rfl, hpf⟩
  · rw [← hpf] at f1
    exact absurd (uniq e1 f1) hij

theorem Simple.meet_getElem {c : Contour K} (hc : c.Simple) {i j : Nat} {e f : Segment K}
    (he : c.edgeList[i]? = some e) (hf : c.edgeList[j]? = some f) (hij : i ≠ j) {p : Point K}
    (hpe : p ∈ e.pts) (hpf : p ∈ f.pts) : e.IsEndpoint p ∧ f.IsEndpoint p := by
  obtain ⟨hi, rfl⟩ := List.getElem?_eq_some_iff.mp he
  obtain ⟨hj, rfl⟩ := List.getElem?_eq_some_iff.mp hf
  have := List.pairwise_iff_getElem.mp hc.meet
  rcases Nat.lt_or_gt_of_ne hij with h | h
  · exact this i j hi hj h p ⟨hpe, hpf⟩
  · exact (this j i hj hi h p ⟨hpf, hpe⟩).symm

end Orient.Contour
