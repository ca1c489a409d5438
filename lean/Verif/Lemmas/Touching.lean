import Verif.Lemmas.Apart
import Verif.Lemmas.Areal
import Verif.Spec.Loose

/-! Contours which touch each other in single points, without closing a ring, do not divide the plane more
than each of them alone. -/

set_option linter.unusedSectionVars false

namespace Orient

variable {K : Type} [Field K] [LinearOrder K] [IsStrictOrderedRing K]

/-! ### the same contour from another point -/

theorem Contour.edgeList_ends (v l : Point K) (m : List (Point K)) :
    (⟨v :: m ++ [l]⟩ : Contour K).edgeList =
      ⟨l, v⟩ :: List.zipWith Segment.mk (v :: m) (m ++ [l]) := by
  have e : (v :: m ++ [l]).rotate ((v :: m ++ [l]).length - 1) = [l] ++ (v :: m) := by
    rw [show (v :: m ++ [l]).length - 1 = (v :: m).length by simp]
    exact List.rotate_append_length_eq _ _
  unfold Contour.edgeList
  simp only [e]
  rfl

theorem Contour.edgeList_insert (v l w : Point K) (m : List (Point K)) :
    (⟨v :: m ++ [l] ++ [w]⟩ : Contour K).edgeList =
      ⟨w, v⟩ :: (List.zipWith Segment.mk (v :: m) (m ++ [l]) ++ [⟨l, w⟩]) := by
  have h := Contour.edgeList_ends v w (m ++ [l])
  rw [show v :: (m ++ [l]) ++ [w] = v :: m ++ [l] ++ [w] by simp] at h
  rw [h, show v :: (m ++ [l]) = (v :: m) ++ [l] by simp, List.zipWith_append (by simp)]
  simp

/-- A point of a segment divides it. -/
theorem Segment.mem_divided {l v w : Point K} (hw : w ∈ (⟨l, v⟩ : Segment K).pts) (p : Point K) :
    p ∈ (⟨l, v⟩ : Segment K).pts ↔ p ∈ (⟨l, w⟩ : Segment K).pts ∨ p ∈ (⟨w, v⟩ : Segment K).pts := by
  obtain ⟨a, a0, a1, rfl⟩ := hw
  simp only
  constructor
  · rintro ⟨b, b0, b1, rfl⟩
    simp only
    rcases le_total b a with h | h
    · left
      by_cases ha : a = 0
      · refine ⟨0, le_rfl, zero_le_one, ?_⟩
        have : b = 0 := by linarith
        simp only [this, lerp_zero]
      · refine ⟨b / a, div_nonneg b0 a0, div_le_one_of_le₀ h a0, ?_⟩
        have e := lerp_lerp l v 0 a (b / a)
        rw [lerp_zero, zero_add, sub_zero, div_mul_cancel₀ _ ha] at e
        exact e.symm
    · right
      by_cases ha : a = 1
      · refine ⟨1, zero_le_one, le_rfl, ?_⟩
        have : b = 1 := by linarith
        simp only [this, lerp_one]
      · have h1 : 1 - a ≠ 0 := fun h => ha (by linarith)
        refine ⟨(b - a) / (1 - a), div_nonneg (by linarith) (by linarith),
          div_le_one_of_le₀ (by linarith) (by linarith), ?_⟩
        have e := lerp_lerp l v a 1 ((b - a) / (1 - a))
        rw [lerp_one, div_mul_cancel₀ _ h1, add_sub_cancel] at e
        exact e.symm
  · rintro (⟨b, b0, b1, rfl⟩ | ⟨b, b0, b1, rfl⟩)
    · refine ⟨b * a, by positivity, by nlinarith, ?_⟩
      have e := lerp_lerp l v 0 a b
      rw [lerp_zero, zero_add, sub_zero] at e
      exact e
    · refine ⟨a + b * (1 - a), by nlinarith, by nlinarith, ?_⟩
      have e := lerp_lerp l v a 1 b
      rw [lerp_one] at e
      exact e

/-- The parts of a divided segment have one common point. -/
theorem Segment.divided_inter {l v w p : Point K} (hw : w ∈ (⟨l, v⟩ : Segment K).pts)
    (h1 : p ∈ (⟨l, w⟩ : Segment K).pts) (h2 : p ∈ (⟨w, v⟩ : Segment K).pts) : p = w := by
  obtain ⟨a, a0, a1, rfl⟩ := hw
  obtain ⟨b, b0, b1, e1⟩ := h1
  obtain ⟨d, d0, d1, e2⟩ := h2
  simp only at e1 e2
  have k1 := lerp_lerp l v 0 a b
  rw [lerp_zero, zero_add, sub_zero] at k1
  have k2 := lerp_lerp l v a 1 d
  rw [lerp_one] at k2
  rw [k1] at e1
  rw [k2] at e2
  by_cases hlv : l = v
  · subst hlv
    rw [e1]
    unfold lerp
    exact Point.ext (by simp) (by simp)
  have := lerp_injective hlv (e1.symm.trans e2)
  have : b * a = a := by nlinarith
  rw [e1, this]

theorem Contour.Simple.insert {v l w : Point K} {m : List (Point K)}
    (h : (⟨v :: m ++ [l]⟩ : Contour K).Simple) (hw : w ∈ (⟨l, v⟩ : Segment K).pts) (hl : w ≠ l) (hv : w ≠ v) :
    (⟨v :: m ++ [l] ++ [w]⟩ : Contour K).Simple ∧
      (⟨v :: m ++ [l] ++ [w]⟩ : Contour K).pts = (⟨v :: m ++ [l]⟩ : Contour K).pts := by
  have hmeet := h.meet
  rw [Contour.edgeList_ends, List.pairwise_cons] at hmeet
  obtain ⟨m1, m2⟩ := hmeet
  set E := List.zipWith Segment.mk (v :: m) (m ++ [l]) with hE
  have hdiv := Segment.mem_divided hw
  refine ⟨⟨by simpa using h.three.trans (Nat.le_succ _), ?_, ?_⟩, ?_⟩
  · refine List.nodup_append.mpr ⟨h.nodup, List.nodup_singleton _, ?_⟩
    rintro a ha b hb rfl
    rw [List.mem_singleton] at hb
    subst hb
    obtain ⟨e, he, e2⟩ := Contour.exists_edge_of_mem_vertices ha
    rw [Contour.edgeList_ends, List.mem_cons] at he
    rcases he with rfl | he
    · exact hv e2.symm
    · rcases (m1 e he a ⟨hw, e2 ▸ e.finish_mem⟩).1 with k | k
      · exact hl k
      · exact hv k
  · rw [Contour.edgeList_insert, List.pairwise_cons]
    have left : ∀ e ∈ E, ∀ p, p ∈ (⟨w, v⟩ : Segment K).pts → p ∈ e.pts → p = v ∧ e.IsEndpoint p := by
      intro e he p h1 h2
      obtain ⟨k1, k2⟩ := m1 e he p ⟨(hdiv p).mpr (.inr h1), h2⟩
      refine ⟨k1.resolve_left fun k => hl ?_, k2⟩
      have k : p = l := k
      exact (Segment.divided_inter hw (k ▸ Segment.start_mem _) h1).symm.trans k
    have right : ∀ e ∈ E, ∀ p, p ∈ (⟨l, w⟩ : Segment K).pts → p ∈ e.pts → p = l ∧ e.IsEndpoint p := by
      intro e he p h1 h2
      obtain ⟨k1, k2⟩ := m1 e he p ⟨(hdiv p).mpr (.inl h1), h2⟩
      refine ⟨k1.resolve_right fun k => hv ?_, k2⟩
      have k : p = v := k
      exact (Segment.divided_inter hw h1 (k ▸ Segment.finish_mem _)).symm.trans k
    refine ⟨fun e he p hp => ?_, List.pairwise_append.mpr ⟨m2, List.pairwise_singleton _ _, ?_⟩⟩
    · rcases List.mem_append.mp he with he | he
      · obtain ⟨k1, k2⟩ := left e he p hp.1 hp.2
        exact ⟨.inr k1, k2⟩
      · rw [List.mem_singleton] at he
        subst he
        have := Segment.divided_inter hw hp.2 hp.1
        exact ⟨.inl this, .inr this⟩
    · intro e he e' he' p hp
      rw [List.mem_singleton] at he'
      subst he'
      obtain ⟨k1, k2⟩ := right e he p hp.2 hp.1
      exact ⟨k2, .inl k1⟩
  · ext p
    unfold Contour.pts segsPts
    rw [Contour.edgeList_insert, Contour.edgeList_ends]
    simp only [Set.mem_ofPred_eq, List.mem_cons, List.mem_append, List.not_mem_nil, or_false, exists_eq_or_imp,
      or_and_right, exists_or, exists_eq_left, hdiv p, hE]
    constructor
    · rintro (h | h | h)
      · exact .inl (.inr h)
      · exact .inr h
      · exact .inl (.inl h)
    · rintro ((h | h) | h)
      · exact .inr (.inr h)
      · exact .inl h
      · exact .inr (.inl h)

/-- Every point of a simple contour is the last vertex of a simple contour with the same points. -/
theorem Contour.Simple.reseated {c : Contour K} (h : c.Simple) {w : Point K} (hw : w ∈ c.pts) :
    ∃ c' : Contour K, c'.Simple ∧ c'.pts = c.pts ∧ c'.vertices[c'.vertices.length - 1]? = some w := by
  obtain ⟨e, he, hwe⟩ := hw
  obtain ⟨i, hi⟩ := List.mem_iff_getElem?.mp he
  have rot : ∀ k, (⟨c.vertices.rotate k⟩ : Contour K).Simple ∧
      (⟨c.vertices.rotate k⟩ : Contour K).pts = c.pts := fun k => ⟨h.rotate k, Contour.pts_rotate _ _⟩
  obtain ⟨hs, hp⟩ := rot i
  have h0 : (⟨c.vertices.rotate i⟩ : Contour K).edgeList[0]? = some e := by
    rw [Contour.edgeList_rotate, List.getElem?_rotate, Nat.zero_add, Nat.mod_eq_of_lt]
    · exact hi
    · exact (List.getElem?_eq_some_iff.mp hi).1
    · exact List.length_pos_of_mem he
  have h3 := hs.three
  obtain ⟨v, m, l, hvs⟩ : ∃ v m l, c.vertices.rotate i = v :: m ++ [l] := by
    match hvs : c.vertices.rotate i with
    | [] => rw [hvs] at h3; simp at h3
    | [_] => rw [hvs] at h3; simp at h3
    | v :: x :: xs =>
      obtain ⟨m, l, e⟩ : ∃ m l, x :: xs = m ++ [l] :=
        ⟨_, _, (List.dropLast_append_getLast (List.cons_ne_nil x xs)).symm⟩
      exact ⟨v, m, l, by rw [e]; rfl⟩
  rw [hvs] at hs hp h0
  rw [Contour.edgeList_ends] at h0
  obtain rfl : ⟨l, v⟩ = e := Option.some.inj h0
  by_cases hl : w = l
  · exact ⟨_, hs, hp, by simp [hl]⟩
  by_cases hv : w = v
  · refine ⟨⟨(v :: m ++ [l]).rotate 1⟩, hs.rotate 1, (Contour.pts_rotate _ _).trans hp, ?_⟩
    simp [hv]
  · obtain ⟨k1, k2⟩ := hs.insert hwe hl hv
    exact ⟨_, k1, k2.trans hp, by simp⟩

/-- The interior of a simple contour is determined by its points. -/
theorem Contour.Simple.interior_congr {c d : Contour K} (hc : c.Simple) (hd : d.Simple) (h : c.pts = d.pts) :
    c.interior = d.interior := by
  have bc := (reference.context_exact.contourBox c hc.ne_nil).interior
  have bd := (reference.context_exact.contourBox d hd.ne_nil).interior
  obtain ⟨M, hM1, hM2⟩ : ∃ M, ((reference.context : Context K).contourBox c).maxX < M ∧
      ((reference.context : Context K).contourBox d).maxX < M :=
    ⟨max ((reference.context : Context K).contourBox c).maxX
      ((reference.context : Context K).contourBox d).maxX + 1,
      (le_max_left _ _).trans_lt (lt_add_one _), (le_max_right _ _).trans_lt (lt_add_one _)⟩
  have nc : (⟨M, 0⟩ : Point K) ∉ c.interior ∪ c.pts := fun h =>
    absurd (bc.le_maxX _ h) (not_le.mpr hM1)
  have nd : (⟨M, 0⟩ : Point K) ∉ d.interior ∪ d.pts := fun h =>
    absurd (bd.le_maxX _ h) (not_le.mpr hM2)
  ext p
  by_cases hp : p ∈ c.pts
  · exact ⟨fun k => absurd hp k.1, fun k => absurd (h ▸ hp) k.1⟩
  have k1 := hc.joined_iff hp fun k => nc (.inr k)
  have k2 := hd.joined_iff (h ▸ hp) fun k => nd (.inr k)
  rw [h] at k1
  have k3 := k1.symm.trans k2
  have n1 : (⟨M, 0⟩ : Point K) ∉ c.interior := fun k => nc (.inl k)
  have n2 : (⟨M, 0⟩ : Point K) ∉ d.interior := fun k => nd (.inl k)
  simp only [n1, n2, iff_false, not_iff_not] at k3
  exact k3

/-! ### the theorem -/

theorem Contour.Simple.join_beside {c : Contour K} (h : c.Simple) {X : List (Segment K)}
    (hX : ∀ u ∈ X, u.Nondegenerate) (ho : (c.pts ∩ segsPts X).Subsingleton) {p q : Point K}
    (hp : p ∉ c.pts ∪ segsPts X) (hq : q ∉ c.pts ∪ segsPts X) (hj : Joined (segsPts X) p q)
    (hl : p ∈ c.interior ↔ q ∈ c.interior) : Joined (c.pts ∪ segsPts X) p q := by
  obtain ⟨c', hs, hpts, hlast⟩ : ∃ c' : Contour K, c'.Simple ∧ c'.pts = c.pts ∧
      ∀ z ∈ c'.pts, z ∈ segsPts X → c'.vertices[c'.vertices.length - 1]? = some z := by
    by_cases hn : (c.pts ∩ segsPts X).Nonempty
    · obtain ⟨w, h1, h2⟩ := hn
      obtain ⟨c', k1, k2, k3⟩ := h.reseated h1
      exact ⟨c', k1, k2, fun z hz hzX => by rw [k3, ho ⟨h1, h2⟩ ⟨k2 ▸ hz, hzX⟩]⟩
    · exact ⟨c, h, rfl, fun z hz hzX => absurd ⟨z, hz, hzX⟩ hn⟩
  rw [h.interior_congr hs hpts.symm] at hl
  rw [← hpts] at hp hq ⊢
  obtain ⟨ε, hε⟩ := exists_inclination (c'.vertices.toFinset ∪
    ((X.map fun u => u.up.start).toFinset ∪ (X.map fun u => u.up.finish).toFinset))
  have hXu : segsPts (X.map Segment.up) = segsPts X := by
    ext z
    simp [segsPts, Segment.pts_up]
  have b : Beside ε c' (X.map Segment.up) := by
    refine ⟨hs, fun v hv w hw => hε v (by simp [hv]) w (by simp [hw]), ?_, by rwa [hXu]⟩
    intro u hu
    obtain ⟨u, hu', rfl⟩ := List.mem_map.mp hu
    refine hε _ ?_ _ ?_ (Segment.up_lt (hX u hu')) <;>
      simp only [Finset.mem_union, List.mem_toFinset, List.mem_map]
    · exact .inr (.inl ⟨u, hu', rfl⟩)
    · exact .inr (.inr ⟨u, hu', rfl⟩)
  have := b.joined (p := p) (q := q) (by rwa [hXu]) (by rwa [hXu]) (by rwa [hXu]) hl
  rwa [hXu] at this

/-- Points with the same location with respect to each of the contours are joined. -/
theorem Loose.joined : ∀ {m : List (Contour K)}, Loose m → (∀ c ∈ m, c.Simple) → ∀ {p q : Point K},
    p ∉ Multiregion.pts m → q ∉ Multiregion.pts m → (∀ c ∈ m, p ∈ c.interior ↔ q ∈ c.interior) →
    Joined (Multiregion.pts m) p q
  | [], _, _, p, q, _, _, _ => .step .refl fun _ _ ⟨_, h, _⟩ => by simp at h
  | c :: m, h, hs, p, q, hp, hq, hl => by
    have e : Multiregion.pts (c :: m) = c.pts ∪ segsPts (edgesOf m) := by
      rw [segsPts_edgesOf]
      ext z
      simp [Multiregion.pts]
    have sub : ∀ z, z ∈ Multiregion.pts m → z ∈ Multiregion.pts (c :: m) := by
      rintro z ⟨d, hd, hz⟩
      exact ⟨d, List.mem_cons_of_mem _ hd, hz⟩
    have ih := Loose.joined h.2 (fun d hd => hs d (List.mem_cons_of_mem _ hd)) (fun k => hp (sub p k))
      (fun k => hq (sub q k)) fun d hd => hl d (List.mem_cons_of_mem _ hd)
    rw [e] at hp hq ⊢
    refine (hs c List.mem_cons_self).join_beside ?_ (by rw [segsPts_edgesOf]; exact h.1) hp hq
      (by rwa [segsPts_edgesOf]) (hl c List.mem_cons_self)
    intro u hu
    obtain ⟨d, hd, hu⟩ := List.mem_flatMap.mp hu
    exact (hs d (List.mem_cons_of_mem _ hd)).nondegenerate hu

/-- The interior of a polygon whose border and holes touch each other without closing a ring is connected. -/
theorem Polygon.Valid.connected {g : Polygon K} (h : g.Valid) (hl : g.Loose) : g.Connected := by
  obtain ⟨m, hm, hl⟩ := hl
  have mem : ∀ c, c ∈ m ↔ c = g.border ∨ c ∈ g.holes := by
    intro c
    rw [hm.mem_iff, List.mem_cons]
  have pts : Multiregion.pts m = g.pts := by
    ext z
    constructor
    · rintro ⟨c, hc, hz⟩
      rcases (mem c).mp hc with rfl | k
      · exact .inl hz
      · exact .inr ⟨c, k, hz⟩
    · rintro (hz | ⟨c, hc, hz⟩)
      · exact ⟨_, (mem _).mpr (.inl rfl), hz⟩
      · exact ⟨c, (mem c).mpr (.inr hc), hz⟩
  intro p hp q hq
  have off : ∀ {p}, p ∈ g.interior → p ∉ Multiregion.pts m := by
    intro p hp
    rw [pts]
    exact h.split.ib p hp
  rw [← pts]
  refine hl.joined (fun c hc => ?_) (off hp) (off hq) fun c hc => ?_
  · rcases (mem c).mp hc with rfl | k
    · exact h.border
    · exact h.holes.simple c k
  · rcases (mem c).mp hc with rfl | k
    · exact iff_of_true hp.1 hq.1
    · exact iff_of_false (fun i => Contour.not_both i (hp.2 c k)) fun i => Contour.not_both i (hq.2 c k)

/-- The same for the parts of the plane inside of one and outside of other contours. -/
theorem Loose.joined_iff {m : List (Contour K)} (h : Loose m) (hs : ∀ c ∈ m, c.Simple) {p q : Point K}
    (hp : p ∉ Multiregion.pts m) (hq : q ∉ Multiregion.pts m) :
    Joined (Multiregion.pts m) p q ↔ ∀ c ∈ m, p ∈ c.interior ↔ q ∈ c.interior := by
  refine ⟨fun j c hc => ?_, h.joined hs hp hq⟩
  refine Contour.interior_iff_of_joined (c := c) ?_
  clear hq
  induction j with
  | refl => exact .refl
  | step _ h2 ih => exact ih.step fun z hz hc' => h2 z hz ⟨c, hc, hc'⟩

end Orient
