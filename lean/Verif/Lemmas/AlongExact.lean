import Verif.Lemmas.AlongTests
import Verif.Spec.Crossing

/-! What exactly the tests of `region.relateSegment` at the endpoints of segments say. -/

set_option linter.unusedSectionVars false

namespace Orient

open Segment

variable {K : Type} [Field K] [LinearOrder K] [IsStrictOrderedRing K]

/-- The index of a point of a contour is that of the first edge which contains it. -/
theorem locateLoop_first {context : Context K} (hc : context.Exact) (p : Point K) :
    ∀ (l : List (Segment K)) (i : Nat) (b : Bool), p ∈ segsPts l →
      ∃ (j : Nat) (e : Segment K), region.locateLoop context p i l b = (some ((i + j : Nat) : Int), .boundary) ∧
        l[j]? = some e ∧ p ∈ e.pts ∧ ∀ k < j, ∀ f, l[k]? = some f → p ∉ f.pts
  | [], _, _, h => by obtain ⟨e, he, -⟩ := h; simp at he
  | e :: l, i, b, h => by
    unfold region.locateLoop
    by_cases hp : p ∈ e.pts
    · have : segment.locatePoint e p context = .boundary := by
        simp [segment.locatePoint, (hc.contains e p).mpr hp]
      exact ⟨0, e, by simp [this], rfl, hp, by simp⟩
    · have : segment.locatePoint e p context ≠ .boundary := by
        have h' : ¬ context.segmentContainsPoint e p = true := fun h => hp ((hc.contains e p).mp h)
        simp [segment.locatePoint, h']
      rw [if_neg this]
      have h' : p ∈ segsPts l := by
        obtain ⟨f, hf, hpf⟩ := h
        rcases List.mem_cons.mp hf with rfl | hf
        · exact absurd hpf hp
        · exact ⟨f, hf, hpf⟩
      obtain ⟨j, f, h1, h2, h3, h4⟩ := locateLoop_first hc p l (i + 1)
        (if region.rayCrosses context p e.start e.finish = true then !b else b) h'
      refine ⟨j + 1, f, ?_, by simpa using h2, h3, ?_⟩
      · have e1 : ((i + 1 : Nat) : Int) = (i : Int) + 1 := by omega
        rw [e1] at h1
        rw [h1]
        congr 3
        omega
      · intro k hk g hg
        cases k with
        | zero => simp at hg; subst hg; exact hp
        | succ k => exact h4 k (by omega) g (by simpa using hg)

/-- A point which is the beginning of the first edge which contains it is the last vertex. -/
theorem Contour.Simple.first_start {c : Contour K} (h : c.Simple) {i : Nat} {e : Segment K}
    (he : c.edgeList[i]? = some e) {p : Point K} (hp : p ∈ e.pts)
    (hfirst : ∀ k < i, ∀ f, c.edgeList[k]? = some f → p ∉ f.pts) :
    p = e.start ↔ c.vertices.getLast? = some p := by
  have h2 : 2 ≤ c.vertices.length := by have := h.three; omega
  have hi : i < c.vertices.length := by
    rw [← Contour.length_edgeList]; exact (List.getElem?_eq_some_iff.mp he).1
  rw [List.getLast?_eq_getElem?]
  constructor
  · rintro rfl
    cases i with
    | zero => exact Contour.edge_start c h2 (.inr ⟨by omega, rfl⟩) he
    | succ i =>
      exfalso
      obtain ⟨f, hf⟩ : ∃ f, c.edgeList[i]? = some f :=
        ⟨_, List.getElem?_eq_getElem (by rw [Contour.length_edgeList]; omega)⟩
      have h1 := Contour.edge_start c h2 (.inl ⟨rfl, hi⟩) he
      have h3 := Contour.edge_finish c hf
      rw [h1] at h3
      refine hfirst i (by omega) f hf ?_
      rw [Option.some.inj h3]
      exact finish_mem _
  · intro hl
    obtain ⟨f, hf⟩ : ∃ f, c.edgeList[0]? = some f :=
      ⟨_, List.getElem?_eq_getElem (by rw [Contour.length_edgeList]; omega)⟩
    have h1 := Contour.edge_start c h2 (i := c.vertices.length - 1) (.inr ⟨by omega, rfl⟩) hf
    rw [hl] at h1
    have h1 := Option.some.inj h1
    cases i with
    | zero => rw [hf] at he; cases he; exact h1
    | succ i => exact absurd (h1 ▸ start_mem f) (hfirst 0 (by omega) f hf)

/-- The test at the end does not say anything about segments which end along an edge. -/
theorem touchesAtEnd_along {context : Context K} (hc : context.Exact) {c : Contour K} (h : c.Simple)
    {p v q : Point K} (hn : cross p v q ≠ 0) {i : Nat} {e : Segment K}
    (he : c.edgeList[i]? = some e) {start finish : Point K} (hw : finish ∈ e.pts) (hne : finish ≠ start)
    {g : Segment K} (hg : g ∈ c.edgeList) (hwg : finish ∈ g.pts)
    (halong : ((⟨finish, start⟩ : Segment K).pts ∩ g.pts).Nontrivial)
    (hside : 0 < cross p v q ∨ ¬ e.IsEndpoint finish) :
    region.touchesAtEnd context c.vertices (context.angleOrientation p v q) i start finish = .ok false := by
  have h2 : 2 ≤ c.vertices.length := by have := h.three; omega
  obtain ⟨g1, g2, ⟨a, ha, g3⟩, b, hb, g4⟩ := c.vertices_at h2 he
  have hm := List.mem_of_getElem? he
  have ray : ∀ {a w b : Point K}, ⟨a, w⟩ ∈ c.edgeList → ⟨w, b⟩ ∈ c.edgeList → finish = w →
      (∃ k : K, 0 < k ∧ start = lerp w b k) ∨ ∃ k : K, 0 < k ∧ start = lerp w a k := by
    rintro a w b h1 h2 rfl
    rcases h.edges_at h1 h2 hg hwg with rfl | rfl
    · right
      rw [← pts_reverse ⟨a, finish⟩] at halong
      exact exists_ray hne halong
    · exact .inl (exists_ray hne halong)
  unfold region.touchesAtEnd
  simp only [g1, g2, g3, g4, bind, Except.bind, pure, Except.pure]
  by_cases e1 : finish = e.start
  · have hccw : 0 < cross p v q := hside.resolve_right (not_not.mpr (.inl e1))
    have ho := (hc.counterclockwise p v q).mpr hccw
    have := corner_along hc (ray ha hm e1)
    simp only [ho, decide_true, if_true, e1]
    split_ifs at this ⊢ with h3
    · simpa using this
    · simpa using this
  · by_cases e2 : finish = e.finish
    · have hccw : 0 < cross p v q := hside.resolve_right (not_not.mpr (.inr e2))
      have ho := (hc.counterclockwise p v q).mpr hccw
      have := corner_along hc (ray hm hb e2)
      simp only [ho, decide_true, if_true, e1, if_false]
      rw [if_pos e2]
      split_ifs at this ⊢ with h3
      · simpa using this
      · simpa using this
    · have hend : ¬ e.IsEndpoint finish := by rintro (h | h) <;> [exact e1 h; exact e2 h]
      have := h.edges_at_inner hm hg hw hend hwg
      subst this
      have hcol := collinear_of_nontrivial (t := g) (g := ⟨finish, start⟩) hne (by rw [Set.inter_comm]; exact halong)
      have h0 : cross g.finish g.start start = 0 := by
        rw [cross_flip, hcol.2, neg_zero]
      have : context.angleOrientation g.finish g.start start ≠ context.angleOrientation p v q := by
        intro h'
        rcases lt_or_gt_of_ne hn with h1 | h1
        · rw [(hc.clockwise p v q).mpr h1, hc.clockwise, h0] at h'
          exact lt_irrefl _ h'
        · rw [(hc.counterclockwise p v q).mpr h1, hc.counterclockwise, h0] at h'
          exact lt_irrefl _ h'
      simp [e1, e2, this]

/-- The test at the start of a segment which does not begin along an edge. -/
theorem touchesAtStart_iff {context : Context K} (hc : context.Exact) {c : Contour K} (h : c.Simple)
    {p v q : Point K} (hl : c.LeastCorner p v q) (hn : cross p v q ≠ 0) {i : Nat} {e : Segment K}
    (he : c.edgeList[i]? = some e) {start finish : Point K} (hw : start ∈ e.pts)
    (hfirst : ∀ k < i, ∀ f, c.edgeList[k]? = some f → start ∉ f.pts) (hne : start ≠ finish)
    {r : K} (r0 : 0 < r) (hx : Seen c start (lerp start finish r))
    (hside : 0 < cross p v q ∨ ¬ e.IsEndpoint start) :
    region.touchesAtStart context c.vertices (context.angleOrientation p v q) i start finish = .ok true ↔
      lerp start finish r ∉ c.interior ∧ ¬ c.NotLeft start := by
  have h2 : 2 ≤ c.vertices.length := by have := h.three; omega
  obtain ⟨g1, g2, ⟨a, ha, g3⟩, b, hb, g4⟩ := c.vertices_at h2 he
  have hm := List.mem_of_getElem? he
  have last := h.first_start he hw hfirst
  unfold region.touchesAtStart
  simp only [g1, g2, g3, g4, bind, Except.bind, pure, Except.pure]
  by_cases e1 : start = e.start
  · have hccw : 0 < cross p v q := hside.resolve_right (not_not.mpr (.inl e1))
    have ho := (hc.counterclockwise p v q).mpr hccw
    have hnl : ¬ c.NotLeft start := fun hl => hl.1 (last.mp e1)
    subst e1
    have := h.corner_test hc hl hccw (far := finish) ha hm hne r0 hx
    rw [← this]
    simp only [ho, decide_true, if_true, hnl, not_false_eq_true, and_true]
    split_ifs <;> simp
  · by_cases e2 : start = e.finish
    · have hccw : 0 < cross p v q := hside.resolve_right (not_not.mpr (.inr e2))
      have ho := (hc.counterclockwise p v q).mpr hccw
      have hnl : c.NotLeft start ↔ ¬ context.angleOrientation e.start e.finish b = .counterclockwise := by
        rw [hc.counterclockwise]
        constructor
        · rintro ⟨-, a', b', m1, m2, hlt⟩
          have hend : start ∈ (⟨a', start⟩ : Segment K).pts := finish_mem _
          have k1 : (⟨a', start⟩ : Segment K) = e := by
            rcases h.edges_at (a := e.start) (w := e.finish) hm hb m1 (e2 ▸ hend) with h' | h'
            · exact h'
            · exfalso
              simp only [Segment.mk.injEq] at h'
              exact h.nondegenerate m1 (h'.1.trans e2.symm)
          have k2 : (⟨start, b'⟩ : Segment K) = ⟨e.finish, b⟩ := by
            rcases h.edges_at (a := e.start) (w := e.finish) hm hb m2 (by rw [← e2]; exact start_mem _) with h' | h'
            · exfalso
              simp only [Segment.mk.injEq] at h'
              exact h.nondegenerate m2 (e2.trans h'.2.symm)
            · exact h'
          rw [← k1]
          simp only [Segment.mk.injEq] at k2 ⊢
          rw [← k2.2]
          exact hlt
        · intro hlt
          refine ⟨fun h' => e1 (last.mpr h'), e.start, b, ?_, ?_, ?_⟩
          · rw [e2]; exact hm
          · rw [e2]; exact hb
          · rw [e2]; exact hlt
      rw [hnl]
      subst e2
      have := h.corner_test hc hl hccw (far := finish) hm hb hne r0 hx
      rw [← this]
      simp only [ho, decide_true, if_true, e1, if_false]
      split_ifs with h3 h4
      · simp [h3, h4]
      · simp only [h4, false_and, iff_false, Except.ok.injEq, Bool.and_eq_true, decide_eq_true_eq]
        exact fun h5 => h4 (.inr h5.2)
      · simp [h3]
    · have hend : ¬ e.IsEndpoint start := by rintro (h | h) <;> [exact e1 h; exact e2 h]
      have hnl : ¬ c.NotLeft start := by
        rintro ⟨-, a', b', m1, -, -⟩
        have := h.edges_at_inner hm m1 hw hend (finish_mem _)
        exact e2 (by rw [← this])
      simp only [e1, e2, if_false, hnl, not_false_eq_true, and_true, Except.ok.injEq, decide_eq_true_eq]
      exact h.edge_test hc hl hn hm hw hend hne r0 hx

/-- Either a segment runs along an edge at its start or points near to it are seen from there. -/
theorem outwards_cases {c : Contour K} (h : c.Simple) {p q : Point K} (hne : p ≠ q) :
    (∃ r, 0 < r ∧ r ≤ 1 ∧ ∀ u, 0 < u → u ≤ r → Seen c p (lerp p q u)) ∨
      (∃ g ∈ c.edgeList, p ∈ g.pts ∧ ((⟨p, q⟩ : Segment K).pts ∩ g.pts).Nontrivial) ∧ ¬ c.Outwards p q := by
  by_cases halong : ∀ g ∈ c.edgeList, p ∈ g.pts → ((⟨p, q⟩ : Segment K).pts ∩ g.pts).Subsingleton
  · left
    obtain ⟨δ, d0, hδ⟩ := exists_seen_near (s := ⟨p, q⟩) hne (c := c) (t := 0) le_rfl zero_le_one
      (by simp only [lerp_zero]; exact halong)
    refine ⟨min δ 1, lt_min d0 one_pos, min_le_right _ _, fun u u0 u1 => ?_⟩
    have := hδ u u0.le (u1.trans (min_le_right _ _))
      (by rw [sub_zero, abs_of_pos u0]; exact u1.trans (min_le_left _ _))
    simpa only [lerp_zero] using this
  · push Not at halong
    obtain ⟨g, hg, hp, hnt⟩ := halong
    refine .inr ⟨⟨g, hg, hp, hnt⟩, ?_⟩
    rintro ⟨t, t0, t1, ht⟩
    obtain ⟨z, ⟨⟨w, w0, w1, rfl⟩, hz⟩, hzp⟩ := hnt.exists_ne p
    have w0 : 0 < w := lt_of_le_of_ne w0 fun h => hzp (by rw [← h, lerp_zero])
    have hm : lerp p q (min t w) ∈ g.pts := by
      have := lerp_mem_pts hp hz (t := min t w / w) (by positivity) (by
        rw [div_le_one w0]; exact min_le_right _ _)
      have e := lerp_lerp p q 0 w (min t w / w)
      rw [lerp_zero] at e
      rw [e] at this
      have e' : (0 : K) + min t w / w * (w - 0) = min t w := by field_simp; ring
      rwa [e'] at this
    exact (ht (min t w) (lt_min t0 w0) (min_le_left _ _)).1 ⟨g, hg, hm⟩

theorem Outwards.of_seen {c : Contour K} {p q : Point K} (hne : p ≠ q) {r : K} (r0 : 0 < r) (r1 : r ≤ 1)
    (hr : ∀ u, 0 < u → u ≤ r → Seen c p (lerp p q u)) {Q : Prop}
    (hQ : ∀ u, 0 < u → u ≤ r → (Q ↔ lerp p q u ∉ c.interior)) : c.Outwards p q ↔ Q := by
  constructor
  · rintro ⟨t, t0, t1, ht⟩
    rw [hQ (min t r) (lt_min t0 r0) (min_le_right _ _)]
    intro hi
    exact Contour.not_both hi (ht (min t r) (lt_min t0 r0) (min_le_left _ _))
  · intro q'
    refine ⟨r, r0, r1, fun u u0 u1 => ?_⟩
    have := (hQ u u0 u1).mp q'
    refine (Contour.cover ?_).resolve_left this
    exact hr u u0 u1 _ (finish_mem _) fun h => u0.ne (lerp_injective hne ((lerp_zero _ _).trans h.symm))

/-- What the test at the start says. -/
theorem touchesAtStart_exact {context : Context K} (hc : context.Exact) {c : Contour K} (h : c.Simple)
    {p v q : Point K} (hl : c.LeastCorner p v q) (hn : cross p v q ≠ 0) {i : Nat} {e : Segment K}
    (he : c.edgeList[i]? = some e) {start finish : Point K} (hw : start ∈ e.pts)
    (hfirst : ∀ k < i, ∀ f, c.edgeList[k]? = some f → start ∉ f.pts) (hne : start ≠ finish)
    (hside : 0 < cross p v q ∨ ¬ e.IsEndpoint start) :
    region.touchesAtStart context c.vertices (context.angleOrientation p v q) i start finish = .ok true ↔
      c.Outwards start finish ∧ ¬ c.NotLeft start := by
  rcases outwards_cases h hne with ⟨r, r0, r1, hr⟩ | ⟨⟨g, hg, hp, hnt⟩, hno⟩
  · by_cases hnl : c.NotLeft start
    · rw [touchesAtStart_iff hc h hl hn he hw hfirst hne r0 (hr r r0 le_rfl) hside]
      simp [hnl]
    · simp only [hnl, not_false_eq_true, and_true]
      refine (Outwards.of_seen hne r0 r1 hr fun u u0 u1 => ?_).symm
      rw [touchesAtStart_iff hc h hl hn he hw hfirst hne u0 (hr u u0 u1) hside]
      simp [hnl]
  · rw [touchesAtStart_along hc h hn he hw hne hg hp hnt hside]
    simp [hno]

/-- What the test at the end says. -/
theorem touchesAtEnd_exact {context : Context K} (hc : context.Exact) {c : Contour K} (h : c.Simple)
    {p v q : Point K} (hl : c.LeastCorner p v q) (hn : cross p v q ≠ 0) {i : Nat} {e : Segment K}
    (he : c.edgeList[i]? = some e) {start finish : Point K} (hw : finish ∈ e.pts) (hne : finish ≠ start)
    (hside : 0 < cross p v q ∨ ¬ e.IsEndpoint finish) :
    region.touchesAtEnd context c.vertices (context.angleOrientation p v q) i start finish = .ok true ↔
      c.Outwards finish start := by
  rcases outwards_cases h hne with ⟨r, r0, r1, hr⟩ | ⟨⟨g, hg, hp, hnt⟩, hno⟩
  · refine (Outwards.of_seen hne r0 r1 hr fun u u0 u1 => ?_).symm
    obtain ⟨b, hb, hb'⟩ := touchesAtEnd_spec hc h hl hn he hw hne u0 (hr u u0 u1) hside
    rw [hb, ← hb']
    simp
  · rw [touchesAtEnd_along hc h hn he hw hne hg hp hnt hside]
    simp [hno]

end Orient
