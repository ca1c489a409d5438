import Verif.Spec.LinearJoins
import Verif.Props.LinearKinds

/-! C92: multisegments which consist of two parts, related to linear geometries. -/

set_option linter.unusedSectionVars false

namespace Orient.Props

variable {K : Type} [Field K] [LinearOrder K] [IsStrictOrderedRing K]

open Segment

theorem segsPts_append (l m : List (Segment K)) : segsPts (l ++ m) = segsPts l ∪ segsPts m := by
  ext p
  simp only [segsPts, List.mem_append, Set.mem_setOf_eq, Set.mem_union]
  constructor
  · rintro ⟨s, h | h, k⟩
    · exact .inl ⟨s, h, k⟩
    · exact .inr ⟨s, h, k⟩
  · rintro (⟨s, h, k⟩ | ⟨s, h, k⟩)
    · exact ⟨s, .inl h, k⟩
    · exact ⟨s, .inr h, k⟩

/-- The relation, up to `TOUCH` and `CROSS`, from what is included, common pieces and common points. -/
def relationOf (p q m n : Bool) : Relation :=
  if p && q then .equal else if p then .component else if q then .composite else if m then .overlap
    else if n then .touch else .disjoint

open Classical in
theorem SetsRel.flat_eq {S T : Set (Point K)} {r : Relation} (h : SetsRel S T r) (k1 : S ⊆ T → SharesPiece S T)
    (k2 : T ⊆ S → SharesPiece S T) : r.flat =
    relationOf (decide (S ⊆ T)) (decide (T ⊆ S)) (decide (SharesPiece S T)) (decide (S ∩ T).Nonempty) := by
  by_cases hp : S ⊆ T <;> by_cases hq : T ⊆ S <;> by_cases hm : SharesPiece S T <;> by_cases hn : (S ∩ T).Nonempty <;>
    first | exact absurd (k1 hp) hm | exact absurd (k2 hq) hm | skip
  all_goals
    simp only [hp, hq, hm, hn, decide_true, decide_false, relationOf, Bool.and_true, Bool.and_false, if_true, if_false,
      Bool.false_eq_true]
    cases r with
    | equal =>
      first
        | rfl
        | exact absurd (show S = T from h).le hp
        | exact absurd (show S = T from h).ge hq
    | component =>
      first
        | rfl
        | exact absurd h.1 hp
        | exact absurd hq h.2
    | composite =>
      first
        | rfl
        | exact absurd h.1 hq
        | exact absurd hp h.2
    | overlap =>
      first
        | rfl
        | exact absurd hp h.1
        | exact absurd hq h.2.1
        | exact absurd h.2.2 hm
    | cross | touch =>
      first
        | rfl
        | exact absurd hm h.2
        | exact absurd h.1 hn
    | disjoint =>
      first
        | rfl
        | exact absurd h hn.ne_empty
        | exact absurd hm.inter_nonempty hn
    | _ => exact h.elim

theorem unite_bits : ∀ p q m n p' q' m' n' Q : Bool, (p → m) → (q → m) → (m → n) → (p' → m') → (q' → m') → (m' → n') →
    (q || q' → Q) → (Q → !m' → q) → (Q → !m → q') → (q → !m') → (q' → !m) →
    ∀ r ∈ [relationOf p q m n, .cross], r.flat = relationOf p q m n →
    ∀ r' ∈ [relationOf p' q' m' n', .cross], r'.flat = relationOf p' q' m' n' →
    ∃ s ∈ r.linearUnite r', s.flat = relationOf (p && p') Q (m || m') (n || n') := by decide +kernel

/-- A part without common pieces covers nothing. -/
theorem subset_left_of_union {l m : List (Segment K)} {t : List (Segment K)} (ht : ∀ e ∈ t, e.Nondegenerate)
    (h : segsPts t ⊆ segsPts l ∪ segsPts m) (hm : ¬ SharesPiece (segsPts m) (segsPts t)) : segsPts t ⊆ segsPts l := by
  rintro x ⟨e, he, hx⟩
  by_contra hn
  obtain ⟨y, hy, hne⟩ : ∃ y ∈ e.pts, x ≠ y := by
    by_cases k : x = e.start
    · exact ⟨e.finish, e.finish_mem, fun k' => ht e he (k.symm.trans k')⟩
    · exact ⟨e.start, e.start_mem, k⟩
  have sub : (⟨x, y⟩ : Segment K).pts ⊆ e.pts := Segment.pts_subset hx hy
  obtain ⟨s, hs, b, hb, k1, k2, k3⟩ := exists_germ_of_subset (l := l ++ m) hne
    (by rw [segsPts_append]; exact (sub.trans (subset_segsPts he)).trans h)
  rcases List.mem_append.mp hs with k | k
  · exact hn ⟨s, k, k2⟩
  · exact hm ⟨⟨x, b⟩, hb.symm, (Segment.pts_subset k2 k3).trans (subset_segsPts k),
      ((Segment.pts_subset (Segment.start_mem _) k1).trans sub).trans (subset_segsPts he)⟩

theorem sharesPiece_union {l m : List (Segment K)} {T : Set (Point K)} :
    SharesPiece (segsPts l ∪ segsPts m) T ↔ SharesPiece (segsPts l) T ∨ SharesPiece (segsPts m) T := by
  constructor
  · rintro ⟨u, hu, h1, h2⟩
    rw [← segsPts_append] at h1
    obtain ⟨s, hs, b, hb, k1, k2, k3⟩ := exists_germ_of_subset hu h1
    have : (⟨u.start, b⟩ : Segment K).pts ⊆ T := (Segment.pts_subset (Segment.start_mem _) k1).trans h2
    rcases List.mem_append.mp hs with k | k
    · exact .inl ⟨⟨u.start, b⟩, hb.symm, (Segment.pts_subset k2 k3).trans (subset_segsPts k), this⟩
    · exact .inr ⟨⟨u.start, b⟩, hb.symm, (Segment.pts_subset k2 k3).trans (subset_segsPts k), this⟩
  · rintro (h | h)
    · exact h.mono Set.subset_union_left le_rfl
    · exact h.mono Set.subset_union_right le_rfl

/-- Different segments of a valid list have no common piece. -/
theorem not_sharesPiece_parts {l m : List (Segment K)} (hv : SegmentsValid (l ++ m)) :
    ¬ SharesPiece (segsPts l) (segsPts m) := by
  rintro ⟨u, hu, h1, h2⟩
  obtain ⟨s, hs, b, hb, k1, k2, k3⟩ := exists_germ_of_subset hu h1
  obtain ⟨t, ht, d, hd, j1, j2, j3⟩ := exists_germ_of_subset hb.symm
    (((Segment.pts_subset (s := u) (Segment.start_mem _) k1)).trans h2)
  have := (List.pairwise_append.mp hv.2).2.2 s hs t ht
  exact hd (this ⟨Segment.pts_subset k2 k3 j1, j3⟩ ⟨k2, j2⟩)

theorem valid_left {l m : List (Segment K)} (hv : SegmentsValid (l ++ m)) : SegmentsValid l :=
  ⟨fun s hs => hv.1 s (List.mem_append_left _ hs), (List.pairwise_append.mp hv.2).1⟩

theorem valid_right {l m : List (Segment K)} (hv : SegmentsValid (l ++ m)) : SegmentsValid m :=
  ⟨fun s hs => hv.1 s (List.mem_append_right _ hs), (List.pairwise_append.mp hv.2).2.1⟩

theorem sharesPiece_of_subset {l : List (Segment K)} (h : ∀ s ∈ l, s.Nondegenerate) (hl : l ≠ []) {T : Set (Point K)}
    (hs : segsPts l ⊆ T) : SharesPiece (segsPts l) T := by
  obtain ⟨s, k⟩ := List.exists_mem_of_ne_nil _ hl
  exact ⟨s, h s k, subset_segsPts k, (subset_segsPts k).trans hs⟩

theorem Relation.flat_cases {r q : Relation} (h : r.flat = q.flat) (hq : q ≠ .cross) : r ∈ [q, .cross] := by
  cases r <;> cases q <;> simp_all [Relation.flat]

open Classical in
/-- The relation of the union of two parts to a linear set. -/
theorem unite_sets {l m t : List (Segment K)} (hv : SegmentsValid (l ++ m)) (hl : l ≠ []) (hm : m ≠ [])
    (ht : ∀ e ∈ t, e.Nondegenerate) (nt : t ≠ []) {r q s : Relation} (h1 : SetsRel (segsPts l) (segsPts t) r)
    (h2 : SetsRel (segsPts m) (segsPts t) q) (h : SetsRel (segsPts (l ++ m)) (segsPts t) s) :
    ∃ s' ∈ r.linearUnite q, s'.flat = s.flat := by
  have a1 := sharesPiece_of_subset (valid_left hv).1 hl (T := segsPts t)
  have a2 := sharesPiece_of_subset (valid_right hv).1 hm (T := segsPts t)
  have b1 : segsPts t ⊆ segsPts l → SharesPiece (segsPts l) (segsPts t) := fun k => (sharesPiece_of_subset ht nt k).symm
  have b2 : segsPts t ⊆ segsPts m → SharesPiece (segsPts m) (segsPts t) := fun k => (sharesPiece_of_subset ht nt k).symm
  rw [segsPts_append] at h
  have e1 := SetsRel.flat_eq h1 a1 b1
  have e2 := SetsRel.flat_eq h2 a2 b2
  have e := SetsRel.flat_eq h
    (fun k => by rw [← segsPts_append] at k ⊢; exact sharesPiece_of_subset hv.1 (by simp [hl]) k)
    (fun k => (sharesPiece_of_subset ht nt k).symm)
  have apart := not_sharesPiece_parts hv
  have noCross : ∀ p q m n, relationOf p q m n ≠ .cross := by decide
  have flat : ∀ p q m n, (relationOf p q m n).flat = relationOf p q m n := by decide
  have u1 : (segsPts l ∪ segsPts m ⊆ segsPts t) ↔ segsPts l ⊆ segsPts t ∧ segsPts m ⊆ segsPts t := Set.union_subset_iff
  have u2 : ((segsPts l ∪ segsPts m) ∩ segsPts t).Nonempty ↔
      (segsPts l ∩ segsPts t).Nonempty ∨ (segsPts m ∩ segsPts t).Nonempty := by
    rw [Set.union_inter_distrib_right, Set.union_nonempty]
  have c1 : segsPts t ⊆ segsPts l ∪ segsPts m → ¬ SharesPiece (segsPts m) (segsPts t) → segsPts t ⊆ segsPts l :=
    subset_left_of_union ht
  have c2 : segsPts t ⊆ segsPts l ∪ segsPts m → ¬ SharesPiece (segsPts l) (segsPts t) → segsPts t ⊆ segsPts m :=
    fun k => subset_left_of_union ht (by rwa [Set.union_comm])
  have d1 : segsPts t ⊆ segsPts l → ¬ SharesPiece (segsPts m) (segsPts t) := fun k k' =>
    apart (k'.symm.mono k le_rfl)
  have d2 : segsPts t ⊆ segsPts m → ¬ SharesPiece (segsPts l) (segsPts t) := fun k k' => apart (k'.mono le_rfl k)
  simp only [u1, u2, sharesPiece_union, Bool.decide_and, Bool.decide_or] at e
  rw [e]
  refine unite_bits _ _ _ _ _ _ _ _ _ ?_ ?_ ?_ ?_ ?_ ?_ ?_ ?_ ?_ ?_ ?_ r
    (Relation.flat_cases (by rw [flat, e1]) (noCross _ _ _ _)) e1 q (Relation.flat_cases (by rw [flat, e2]) (noCross _ _ _ _)) e2
  all_goals simp only [decide_eq_true_eq, Bool.or_eq_true, Bool.not_eq_true', decide_eq_false_iff_not]
  · exact a1
  · exact b1
  · exact fun k => k.inter_nonempty
  · exact a2
  · exact b2
  · exact fun k => k.inter_nonempty
  · rintro (k | k)
    · exact k.trans Set.subset_union_left
    · exact k.trans Set.subset_union_right
  · exact c1
  · exact c2
  · exact d1
  · exact d2

/-- Where the second part is not, the union crosses as the first part does. -/
theorem crossesAt_left {l m : List (Segment K)} {T : Set (Point K)} {p : Point K} (hm : segsPts m ∩ T = ∅)
    (h : CrossesAt (segsPts (l ++ m)) T p) : CrossesAt (segsPts l) T p := by
  obtain ⟨a, b, u, v, ha, hb, hu, hv, h1, h2⟩ := h
  have hp : p ∉ segsPts m := fun k => Set.eq_empty_iff_forall_notMem.mp hm p ⟨k, hu (Segment.start_mem _)⟩
  have near : ∀ {a : Point K}, a ≠ p → (⟨p, a⟩ : Segment K).pts ⊆ segsPts (l ++ m) →
      ∃ a', SameRay p a a' ∧ (⟨p, a'⟩ : Segment K).pts ⊆ segsPts l := by
    intro a hne ha
    obtain ⟨s, hs, d, hd, ⟨k, k0, k1, rfl⟩, k2, k3⟩ := exists_germ_of_subset hne.symm ha
    refine ⟨_, ⟨k, lt_of_le_of_ne k0 ?_, rfl⟩, ?_⟩
    · rintro rfl
      exact hd (by simp)
    · rcases List.mem_append.mp hs with j | j
      · exact (Segment.pts_subset k2 k3).trans (subset_segsPts j)
      · exact absurd ⟨s, j, k2⟩ hp
  obtain ⟨a', ra, ha'⟩ := near h1.left_ne ha
  obtain ⟨b', rb, hb'⟩ := near h1.right_ne hb
  have self : ∀ x : Point K, SameRay p x x := fun x => ⟨1, one_pos, by simp⟩
  exact ⟨a', b', u, v, ha', hb', hu, hv, h1.congr ra rb (self _), h2.congr rb ra (self _)⟩

theorem crossesAt_right {l m : List (Segment K)} {T : Set (Point K)} {p : Point K} (hl : segsPts l ∩ T = ∅)
    (h : CrossesAt (segsPts (l ++ m)) T p) : CrossesAt (segsPts m) T p :=
  crossesAt_left (m := l) hl (by rwa [segsPts_append, Set.union_comm, ← segsPts_append] at h)

section

variable {context : Context K} (hc : context.Exact)
include hc

/-- C92: the answer about a multisegment which consists of two parts and a contour, from the answers about the parts. -/
theorem C92_multisegment_in_contour {l m : List (Segment K)} (hv : SegmentsValid (l ++ m)) (hl : l ≠ []) (hm : m ≠ [])
    {c : Contour K} (h : c.Simple) : ∃ r q s, planar.multisegmentInContour ⟨l⟩ c context = .ok r ∧
      planar.multisegmentInContour ⟨m⟩ c context = .ok q ∧ planar.multisegmentInContour ⟨l ++ m⟩ c context = .ok s ∧
      s ∈ r.linearUnite q := by
  have nlm : l ++ m ≠ [] := by simp [hl]
  have vl := valid_left hv
  have vm := valid_right hv
  obtain ⟨r, hr, kr⟩ := C18_multisegment_in_contour hc (a := ⟨l⟩) hl h.ne_nil vl h.valid
  obtain ⟨q, hq, kq⟩ := C18_multisegment_in_contour hc (a := ⟨m⟩) hm h.ne_nil vm h.valid
  obtain ⟨s, hs, ks⟩ := C18_multisegment_in_contour hc (a := ⟨l ++ m⟩) nlm h.ne_nil hv h.valid
  obtain ⟨xr, tr⟩ := C51_multisegment_in_contour hc (a := ⟨l⟩) hl vl h
  obtain ⟨xq, tq⟩ := C51_multisegment_in_contour hc (a := ⟨m⟩) hm vm h
  obtain ⟨xs, ts⟩ := C51_multisegment_in_contour hc (a := ⟨l ++ m⟩) nlm hv h
  refine ⟨r, q, s, hr, hq, hs, ?_⟩
  obtain ⟨s', h1, h2⟩ := unite_sets hv hl hm (t := c.edgeList) (fun e he => h.nondegenerate he)
    (Contour.edgeList_ne_nil h.ne_nil) kr kq ks
  rw [hr] at xr tr
  rw [hq] at xq tq
  rw [hs] at xs ts
  simp only [Except.ok.injEq] at xr tr xq tq xs ts
  have left : (∃ p, CrossesAt (segsPts l) c.pts p) → ∃ p, CrossesAt (segsPts (l ++ m)) c.pts p := fun ⟨p, k⟩ =>
    ⟨p, k.mono (by rw [segsPts_append]; exact Set.subset_union_left) le_rfl⟩
  have right : (∃ p, CrossesAt (segsPts m) c.pts p) → ∃ p, CrossesAt (segsPts (l ++ m)) c.pts p := fun ⟨p, k⟩ =>
    ⟨p, k.mono (by rw [segsPts_append]; exact Set.subset_union_right) le_rfl⟩
  by_cases hcr : s = .cross
  · subst hcr
    obtain ⟨-, p, hp⟩ := xs.mp rfl
    cases r <;> cases q <;> simp only [Relation.linearUnite, List.mem_cons, List.not_mem_nil, or_false, reduceCtorEq, or_true,
        true_or, or_self] at h1 ⊢ <;>
      first
        | trivial
        | exact (tr.mp rfl).2.2 ⟨p, crossesAt_left kq hp⟩
        | exact (tq.mp rfl).2.2 ⟨p, crossesAt_right kr hp⟩
        | (exfalso; revert h2; subst h1; simp [Relation.flat]; done)
        | (exfalso; revert h2; rcases h1 with rfl | rfl <;> simp [Relation.flat]; done)
  · by_cases ht : s = .touch
    · subst ht
      have no := (ts.mp rfl).2.2
      cases r <;> cases q <;> simp only [Relation.linearUnite, List.mem_cons, List.not_mem_nil, or_false, reduceCtorEq, or_true,
        true_or, or_self] at h1 ⊢ <;>
        first
          | trivial
          | exact no (left (xr.mp rfl).2)
          | exact no (right (xq.mp rfl).2)
          | (exfalso; revert h2; subst h1; simp [Relation.flat]; done)
          | (exfalso; revert h2; rcases h1 with rfl | rfl <;> simp [Relation.flat]; done)
    · suffices s' = s by rwa [← this]
      cases s <;> cases s' <;> simp_all [Relation.flat]

/-- C92: the same for two multisegments, but `TOUCH` and `CROSS` are not told apart. -/
theorem C92_multisegment_in_multisegment {l m t : List (Segment K)} (hv : SegmentsValid (l ++ m)) (hl : l ≠ [])
    (hm : m ≠ []) (ht : SegmentsValid t) (nt : t ≠ []) : ∃ r q s,
      planar.multisegmentInMultisegment ⟨l⟩ ⟨t⟩ context = .ok r ∧
      planar.multisegmentInMultisegment ⟨m⟩ ⟨t⟩ context = .ok q ∧
      planar.multisegmentInMultisegment ⟨l ++ m⟩ ⟨t⟩ context = .ok s ∧ ∃ s' ∈ r.linearUnite q, s'.flat = s.flat := by
  obtain ⟨r, hr, kr⟩ := C18_multisegment_in_multisegment hc (a := ⟨l⟩) (b := ⟨t⟩) hl nt (valid_left hv) ht
  obtain ⟨q, hq, kq⟩ := C18_multisegment_in_multisegment hc (a := ⟨m⟩) (b := ⟨t⟩) hm nt (valid_right hv) ht
  obtain ⟨s, hs, ks⟩ := C18_multisegment_in_multisegment hc (a := ⟨l ++ m⟩) (b := ⟨t⟩) (by simp [hl]) nt hv ht
  exact ⟨r, q, s, hr, hq, hs, unite_sets hv hl hm ht.1 nt kr kq ks⟩

end

/-- Two parts of a multisegment for each possible answer about the triangle with the vertices `(0, 0)`, `(8, 0)`, `(0, 8)`. -/
def unitedParts : List (List (Segment ℚ) × List (Segment ℚ)) :=
  let a : Segment ℚ := ⟨⟨0, 0⟩, ⟨8, 0⟩⟩
  let b : Segment ℚ := ⟨⟨8, 0⟩, ⟨0, 8⟩⟩
  let c : Segment ℚ := ⟨⟨0, 8⟩, ⟨0, 0⟩⟩
  let i : Segment ℚ := ⟨⟨2, 3⟩, ⟨3, 3⟩⟩
  let o : Segment ℚ := ⟨⟨9, 0⟩, ⟨9, 1⟩⟩
  let t : Segment ℚ := ⟨⟨3, 0⟩, ⟨4, -1⟩⟩
  let x : Segment ℚ := ⟨⟨1, -1⟩, ⟨1, 1⟩⟩
  [([o], [i]), ([o], [t]), ([t], [⟨⟨5, 0⟩, ⟨6, -1⟩⟩]), ([t], [⟨⟨3, 0⟩, ⟨3, 1⟩⟩]), ([x], [o]), ([x], [t]),
    ([x], [⟨⟨2, -1⟩, ⟨2, 1⟩⟩]), ([a, b, c], [o]), ([a, b, c], [t]), ([a, b, c], [x]), ([a, b, c, o], [i]),
    ([a, b, c, o], [t]), ([a, b, c, o], [x]), ([a], [b]), ([a], [b, c]), ([a], [b, o]), ([a], [b, c, o]), ([a, o], [b, i]),
    ([a, o], [b, c, i]), ([a], [o]), ([a], [t]), ([a], [x]), ([a, o], [i]), ([a, o], [t]), ([a, o], [x])]

theorem unitedParts_valid : ∀ x ∈ unitedParts, x.1 ≠ [] ∧ x.2 ≠ [] ∧ SegmentsValid (x.1 ++ x.2) := by
  have key : ∀ x ∈ unitedParts, x.1 ≠ [] ∧ x.2 ≠ [] ∧ reference.isValid (x.1 ++ x.2) = true := by decide +kernel
  exact fun x hx => ⟨(key x hx).1, (key x hx).2.1, segmentsValid_of_check (key x hx).2.2⟩

/-- The three answers. -/
def unitedAnswers (x : List (Segment ℚ) × List (Segment ℚ)) : Py Relation × Py Relation × Py Relation :=
  let c : Contour ℚ := ⟨[⟨0, 0⟩, ⟨8, 0⟩, ⟨0, 8⟩]⟩
  (planar.multisegmentInContour ⟨x.1⟩ c reference.context, planar.multisegmentInContour ⟨x.2⟩ c reference.context,
    planar.multisegmentInContour ⟨x.1 ++ x.2⟩ c reference.context)

theorem unitedAnswers_eq : unitedParts.map unitedAnswers =
    [(.ok .disjoint, .ok .disjoint, .ok .disjoint), (.ok .disjoint, .ok .touch, .ok .touch),
      (.ok .touch, .ok .touch, .ok .touch), (.ok .touch, .ok .touch, .ok .cross), (.ok .cross, .ok .disjoint, .ok .cross),
      (.ok .cross, .ok .touch, .ok .cross), (.ok .cross, .ok .cross, .ok .cross),
      (.ok .equal, .ok .disjoint, .ok .composite), (.ok .equal, .ok .touch, .ok .composite),
      (.ok .equal, .ok .cross, .ok .composite), (.ok .composite, .ok .disjoint, .ok .composite),
      (.ok .composite, .ok .touch, .ok .composite), (.ok .composite, .ok .cross, .ok .composite),
      (.ok .component, .ok .component, .ok .component), (.ok .component, .ok .component, .ok .equal),
      (.ok .component, .ok .overlap, .ok .overlap), (.ok .component, .ok .overlap, .ok .composite),
      (.ok .overlap, .ok .overlap, .ok .overlap), (.ok .overlap, .ok .overlap, .ok .composite),
      (.ok .component, .ok .disjoint, .ok .overlap), (.ok .component, .ok .touch, .ok .overlap),
      (.ok .component, .ok .cross, .ok .overlap), (.ok .overlap, .ok .disjoint, .ok .overlap),
      (.ok .overlap, .ok .touch, .ok .overlap), (.ok .overlap, .ok .cross, .ok .overlap)] := by decide +kernel

/-- C92: no entry of the table can be left out, up to the order of the parts. -/
theorem C92_example : ∀ r q s, s ∈ Relation.linearUnite r q →
    (.ok r, .ok q, .ok s) ∈ unitedParts.map unitedAnswers ∨ (.ok q, .ok r, .ok s) ∈ unitedParts.map unitedAnswers := by
  rw [unitedAnswers_eq]
  intro r q s h
  cases r <;> cases q <;> simp only [Relation.linearUnite, List.mem_cons, List.not_mem_nil, or_false] at h <;>
    first
      | (subst h; simp; done)
      | (rcases h with rfl | rfl <;> simp; done)

end Orient.Props
