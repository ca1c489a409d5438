import Verif.Lemmas.Sweep.Union

/-! # Goals of several parts, some of which are skipped -/

set_option linter.unusedSectionVars false

namespace Orient

variable {K : Type} [Field K] [LinearOrder K] [IsStrictOrderedRing K]

open Segment State eventsQueue

/-- The endpoints of the edges of several parts. -/
def gather {α : Type} (segmentsOf : α → Py (List (SegmentEndpoints K))) :
    List α → Py (List (SegmentEndpoints K))
  | [] => .ok []
  | part :: rest => do
    let head ← segmentsOf part
    let tail ← gather segmentsOf rest
    return head ++ tail

theorem gather_multiregion (context : Context K) (b : Bool) (m : List (Contour K)) :
    multiregion.toOrientedEdgesEndpoints m context b
      = gather (fun c => region.toOrientedSegments c context b) m := by
  induction m with
  | nil => rfl
  | cons c m ih =>
    unfold multiregion.toOrientedEdgesEndpoints gather
    rw [ih]

theorem gather_multipolygon (context : Context K) (b : Bool) (m : List (Polygon K)) :
    multipolygon.orientedSegmentsOf context b m
      = gather (fun c => polygon.toOrientedEdgesEndpoints c context b) m := by
  induction m with
  | nil => rfl
  | cons c m ih =>
    unfold multipolygon.orientedSegmentsOf gather
    rw [ih]

theorem State.register_append (s : State K) (b : Bool) (l l' : List (SegmentEndpoints K)) :
    s.register b (l ++ l') = (s.register b l).register b l' := by
  unfold State.register
  rw [List.foldl_append]

theorem gather_cons {α : Type} {f : α → Py (List (SegmentEndpoints K))} {p : α} {ps : List α}
    {L : List (SegmentEndpoints K)} (h : gather f (p :: ps) = .ok L) :
    ∃ l L', f p = .ok l ∧ gather f ps = .ok L' ∧ L = l ++ L' := by
  unfold gather at h
  cases h1 : f p with
  | error e => rw [h1] at h; cases h
  | ok l =>
    cases h2 : gather f ps with
    | error e => rw [h1, h2] at h; cases h
    | ok L' =>
      rw [h1, h2] at h
      cases h
      exact ⟨l, L', rfl, rfl, rfl⟩

section

variable {α : Type} (boxOf : α → Box K) (segmentsOf : α → Py (List (SegmentEndpoints K)))
  (testBox : Box K)

/-- No part is skipped. -/
def allKept (parts : List α) : Bool := parts.all fun p => !box.disjointWith testBox (boxOf p)

theorem registerParts_some (testSegments : Py (List (SegmentEndpoints K))) {parts : List α} :
    ∀ {L : List (SegmentEndpoints K)} (_ : gather segmentsOf (kept boxOf testBox parts) = .ok L)
      (nd : Bool) (m : K) (s : State K),
    ∃ m', registerParts boxOf segmentsOf testBox testSegments parts nd (some (m, s))
        = .ok (nd && allKept boxOf testBox parts, some (m', s.register false L)) ∧
      m ≤ m' ∧ ∀ p ∈ kept boxOf testBox parts, (boxOf p).maxX ≤ m' := by
  induction parts with
  | nil =>
    intro L hL nd m s
    cases hL
    exact ⟨m, by simp [registerParts, allKept, State.register], le_rfl, by simp [kept]⟩
  | cons p ps ih =>
    intro L hL nd m s
    unfold registerParts
    by_cases h : box.disjointWith testBox (boxOf p) = true
    · have hk : kept boxOf testBox (p :: ps) = kept boxOf testBox ps := by simp [kept, h]
      rw [hk] at hL ⊢
      obtain ⟨m', h1, h2, h3⟩ := ih hL false m s
      refine ⟨m', ?_, h2, h3⟩
      rw [if_pos h, h1]
      simp [allKept, h]
    · have hk : kept boxOf testBox (p :: ps) = p :: kept boxOf testBox ps := by simp [kept, h]
      rw [hk] at hL ⊢
      obtain ⟨l, L', e1, e2, rfl⟩ := gather_cons hL
      obtain ⟨m', h1, h2, h3⟩ := ih e2 nd (max m (boxOf p).maxX) (s.register false l)
      refine ⟨m', ?_, (le_max_left _ _).trans h2, ?_⟩
      · rw [if_neg h]
        simp only [e1]
        change registerParts _ _ _ _ _ _ _ = _
        rw [h1, State.register_append]
        simp [allKept, h]
      · intro q hq
        rcases List.mem_cons.mp hq with rfl | hq
        · exact (le_max_right _ _).trans h2
        · exact h3 q hq

theorem registerParts_none {test : List (SegmentEndpoints K)} {parts : List α} :
    ∀ {L : List (SegmentEndpoints K)} (_ : gather segmentsOf (kept boxOf testBox parts) = .ok L)
      (nd : Bool),
    (kept boxOf testBox parts = [] ∧
      ∃ nd', registerParts boxOf segmentsOf testBox (.ok test) parts nd none = .ok (nd', none)) ∨
    (kept boxOf testBox parts ≠ [] ∧
      ∃ m', registerParts boxOf segmentsOf testBox (.ok test) parts nd none
        = .ok (nd && allKept boxOf testBox parts,
            some (m', (State.empty.register true test).register false L)) ∧
      ∀ p ∈ kept boxOf testBox parts, (boxOf p).maxX ≤ m') := by
  induction parts with
  | nil =>
    intro L hL nd
    exact .inl ⟨rfl, nd, rfl⟩
  | cons p ps ih =>
    intro L hL nd
    unfold registerParts
    by_cases h : box.disjointWith testBox (boxOf p) = true
    · have hk : kept boxOf testBox (p :: ps) = kept boxOf testBox ps := by simp [kept, h]
      rw [hk] at hL ⊢
      rw [if_pos h]
      rcases ih hL false with ⟨h1, nd', h2⟩ | ⟨h1, m', h2, h3⟩
      · exact .inl ⟨h1, nd', h2⟩
      · exact .inr ⟨h1, m', by rw [h2]; simp [allKept, h], h3⟩
    · have hk : kept boxOf testBox (p :: ps) = p :: kept boxOf testBox ps := by simp [kept, h]
      rw [hk] at hL ⊢
      obtain ⟨l, L', e1, e2, rfl⟩ := gather_cons hL
      obtain ⟨m', h1, h2, h3⟩ := registerParts_some boxOf segmentsOf testBox (.ok test) e2 nd
        (boxOf p).maxX ((State.empty.register true test).register false l)
      refine .inr ⟨by simp, m', ?_, ?_⟩
      · rw [if_neg h]
        simp only [e1]
        change registerParts _ _ _ _ _ _ _ = _
        rw [h1, State.register_append]
        simp [allKept, h]
      · intro q hq
        rcases List.mem_cons.mp hq with rfl | hq
        · exact h2
        · exact h3 q hq

end

/-! ### skipped parts -/

section

variable {S I B E I₁ B₁ E₁ I₂ B₂ E₂ : Set (Point K)}

/-- Parts which do not meet the linear geometry do not change its relation. -/
theorem LinearCompoundRel.skip (h2 : S ⊆ E₂) (a1 : I₂ ∩ E₂ = ∅) (a2 : B₂ ∩ E₂ = ∅) {r : Relation}
    (h : LinearCompoundRel S I₁ B₁ E₁ r) : LinearCompoundRel S (I₁ ∪ I₂) (B₁ ∪ B₂) (E₁ ∩ E₂) r := by
  have e1 : S ∩ (I₁ ∪ I₂) = S ∩ I₁ := by
    ext x
    constructor
    · rintro ⟨x1, x2 | x2⟩
      · exact ⟨x1, x2⟩
      · exact absurd ⟨x2, h2 x1⟩ (Set.eq_empty_iff_forall_notMem.mp a1 x)
    · exact fun ⟨x1, x2⟩ => ⟨x1, .inl x2⟩
  have e2 : S ∩ (B₁ ∪ B₂) = S ∩ B₁ := by
    ext x
    constructor
    · rintro ⟨x1, x2 | x2⟩
      · exact ⟨x1, x2⟩
      · exact absurd ⟨x2, h2 x1⟩ (Set.eq_empty_iff_forall_notMem.mp a2 x)
    · exact fun ⟨x1, x2⟩ => ⟨x1, .inl x2⟩
  have e3 : S ∩ (E₁ ∩ E₂) = S ∩ E₁ := by
    ext x
    exact ⟨fun ⟨x1, x2⟩ => ⟨x1, x2.1⟩, fun ⟨x1, x2⟩ => ⟨x1, x2, h2 x1⟩⟩
  cases r
  · exact fun x hx => ⟨h hx, h2 hx⟩
  · exact ⟨e1 ▸ h.1, e3 ▸ h.2.1, e2 ▸ h.2.2⟩
  · exact ⟨e1 ▸ h.1, e3 ▸ h.2⟩
  · exact h
  · exact h
  · exact h
  · exact h
  · exact h
  · exact fun x hx => .inl (h hx)
  · exact ⟨e3 ▸ h.1, e1 ▸ h.2.1, e2 ▸ h.2.2⟩
  · exact fun x hx => .inl (h hx)

/-- The correction for parts which do not meet the other operand. -/
theorem CompoundRel.skip (h2 : I ∪ B ⊆ E₂) (h2' : I₂ ⊆ E) (ne : I₂.Nonempty) (ne₁ : I₁.Nonempty)
    (ne' : B₁.Nonempty) (a1 : I₂ ∩ E₂ = ∅) (a2 : B₂ ∩ E₂ = ∅)
    (near : ∀ z ∈ B₁, z ∈ I → (E₁ ∩ I).Nonempty) {r : Relation}
    (h : CompoundRel I B E I₁ B₁ E₁ r) :
    CompoundRel I B E (I₁ ∪ I₂) (B₁ ∪ B₂) (E₁ ∩ E₂) (correctSkipped false r) := by
  have out : ∀ {x}, x ∈ I ∪ B → x ∉ I₂ ∪ B₂ := by
    rintro x hx (h | h)
    · exact Set.eq_empty_iff_forall_notMem.mp a1 x ⟨h, h2 hx⟩
    · exact Set.eq_empty_iff_forall_notMem.mp a2 x ⟨h, h2 hx⟩
  obtain ⟨w, hw⟩ := ne
  obtain ⟨w₁, hw₁⟩ := ne₁
  obtain ⟨w', hw'⟩ := ne'
  have over : I₁ ⊆ I → (∃ z ∈ B₁, z ∈ I) ∨ (I ∩ E₁).Nonempty →
      CompoundRel I B E (I₁ ∪ I₂) (B₁ ∪ B₂) (E₁ ∩ E₂) .overlap := by
    intro hs hz
    refine ⟨⟨w₁, hs hw₁, .inl hw₁⟩, ?_, ⟨w, h2' hw, .inr hw⟩⟩
    rcases hz with ⟨z, z1, z2⟩ | ⟨y, y1, y2⟩
    · obtain ⟨y, y1, y2⟩ := near z z1 z2
      exact ⟨y, y2, y1, h2 (.inl y2)⟩
    · exact ⟨y, y1, y2, h2 (.inl y1)⟩
  cases r
  · refine Set.eq_empty_iff_forall_notMem.mpr fun x hx => ?_
    have h := Set.eq_empty_iff_forall_notMem.mp h x
    rcases hx.2 with (h' | h') | (h' | h')
    · exact h ⟨hx.1, .inl h'⟩
    · exact out hx.1 (.inl h')
    · exact h ⟨hx.1, .inr h'⟩
    · exact out hx.1 (.inr h')
  · obtain ⟨⟨x, x1, x2⟩, hs⟩ := h
    refine ⟨⟨x, x1, .inl x2⟩, fun y hy => ?_⟩
    rcases hy.2 with (h' | h') | (h' | h')
    · obtain ⟨y1, y2⟩ := hs ⟨hy.1, .inl h'⟩
      exact ⟨y1, .inl y2⟩
    · exact absurd (.inl h') (out hy.1)
    · obtain ⟨y1, y2⟩ := hs ⟨hy.1, .inr h'⟩
      exact ⟨y1, .inl y2⟩
    · exact absurd (.inr h') (out hy.1)
  · exact h
  · obtain ⟨⟨x, x1, x2⟩, ⟨y, y1, y2⟩, ⟨z, z1, z2⟩⟩ := h
    exact ⟨⟨x, x1, .inl x2⟩, ⟨y, y1, y2, h2 (.inl y1)⟩, ⟨z, z1, .inl z2⟩⟩
  · exact over (fun x hx => h (.inl hx)) (.inl ⟨w', hw', h (.inr hw')⟩)
  · obtain ⟨z, z1, z2⟩ := h.2.2.1
    exact over h.1 (.inl ⟨z, z1, z2⟩)
  · exact over h.1 (.inr h.2.2)
  · obtain ⟨rfl, rfl⟩ := h
    exact ⟨Set.subset_union_left, Set.subset_union_left, ⟨w, h2' hw, .inr hw⟩⟩
  · obtain ⟨h1, h3, ⟨x, x1, x2⟩⟩ := h
    exact ⟨fun y hy => .inl (h1 hy), fun y hy => .inl (h3 hy), ⟨x, x1, .inl x2⟩⟩
  · obtain ⟨h1, h3, ⟨x, x1, x2⟩, ⟨y, y1, y2⟩⟩ := h
    refine ⟨fun y hy => .inl (h1 hy), fun y hy => ?_, ⟨x, x1, .inl x2⟩, ⟨y, y1, .inl y2⟩⟩
    rcases h3 hy with h | h
    · exact .inl (.inl h)
    · exact .inr (.inl h)
  · exact fun x hx => .inl (h hx)

end

/-! ### the sweep over parts -/

/-- Areas which are parts of a goal. -/
structure Parts {α : Type} (boxOf : α → Box K) (segmentsOf : α → Py (List (SegmentEndpoints K)))
    (edges : α → List (Segment K)) (int ext : α → Set (Point K)) (parts : List α) : Prop where
  outline : ∀ ps, ps.Sublist parts → ∃ L, gather segmentsOf ps = .ok L ∧
    Oriented false L (ps.flatMap edges) {x | ∃ p ∈ ps, x ∈ int p} {x | ∀ p ∈ ps, x ∈ ext p}
  box : ∀ p ∈ parts, IsBoxOf (boxOf p) (int p ∪ segsPts (edges p))
  ne : ∀ p ∈ parts, edges p ≠ []

section

variable {α : Type} {boxOf : α → Box K} {segmentsOf : α → Py (List (SegmentEndpoints K))}
  {edges : α → List (Segment K)} {int ext : α → Set (Point K)} {parts : List α}

theorem mem_segsPts_flatMap {x : Point K} {ps : List α} :
    x ∈ segsPts (ps.flatMap edges) ↔ ∃ p ∈ ps, x ∈ segsPts (edges p) := by
  simp only [segsPts, List.mem_flatMap, Set.mem_ofPred_eq]
  exact ⟨fun ⟨u, ⟨c, h1, h2⟩, h3⟩ => ⟨c, h1, u, h2, h3⟩, fun ⟨c, h1, u, h2, h3⟩ => ⟨u, ⟨c, h1, h2⟩, h3⟩⟩

theorem Parts.one (h : Parts boxOf segmentsOf edges int ext parts) {p : α} (hp : p ∈ parts) :
    ∃ L, Oriented false L (edges p) (int p) (ext p) := by
  obtain ⟨L, -, o⟩ := h.outline [p] (List.singleton_sublist.mpr hp)
  refine ⟨L, ?_⟩
  simpa using o

/-- Everything which is not skipped and everything which is skipped. -/
theorem Parts.split (h : Parts boxOf segmentsOf edges int ext parts) {S : Set (Point K)}
    {testBox : Box K} (hb : IsBoxOf testBox S) :
    ∃ I₂ B₂ E₂ : Set (Point K),
      {x | ∃ p ∈ parts, x ∈ int p} = {x | ∃ p ∈ kept boxOf testBox parts, x ∈ int p} ∪ I₂ ∧
      segsPts (parts.flatMap edges) = segsPts ((kept boxOf testBox parts).flatMap edges) ∪ B₂ ∧
      {x | ∀ p ∈ parts, x ∈ ext p} = {x | ∀ p ∈ kept boxOf testBox parts, x ∈ ext p} ∩ E₂ ∧
      S ⊆ E₂ ∧ I₂ ∩ E₂ = ∅ ∧ B₂ ∩ E₂ = ∅ ∧ S ∩ (I₂ ∪ B₂) = ∅ ∧
      (allKept boxOf testBox parts = false → I₂.Nonempty) ∧
      (allKept boxOf testBox parts = true → kept boxOf testBox parts = parts) := by
  have cases : ∀ p ∈ parts, p ∈ kept boxOf testBox parts ∨ box.disjointWith testBox (boxOf p) = true := by
    intro p hp
    by_cases hd : Orient.box.disjointWith testBox (boxOf p) = true
    · exact .inr hd
    · exact .inl (by simp [kept, hp, hd])
  have mem : ∀ p ∈ kept boxOf testBox parts, p ∈ parts := fun p hp => (List.mem_filter.mp hp).1
  have out : ∀ p ∈ parts, box.disjointWith testBox (boxOf p) = true → ∀ x ∈ S,
      x ∉ int p ∧ x ∉ segsPts (edges p) := by
    intro p hp hd x hx
    have := Set.eq_empty_iff_forall_notMem.mp (box.inter_empty hb (h.box p hp) hd) x
    exact ⟨fun h => this ⟨hx, .inl h⟩, fun h => this ⟨hx, .inr h⟩⟩
  refine ⟨{x | ∃ p ∈ parts, box.disjointWith testBox (boxOf p) = true ∧ x ∈ int p},
    {x | ∃ p ∈ parts, box.disjointWith testBox (boxOf p) = true ∧ x ∈ segsPts (edges p)},
    {x | ∀ p ∈ parts, box.disjointWith testBox (boxOf p) = true → x ∈ ext p}, ?_, ?_, ?_, ?_, ?_, ?_, ?_,
    ?_, ?_⟩
  · ext x
    constructor
    · rintro ⟨p, hp, hx⟩
      rcases cases p hp with h | h
      · exact .inl ⟨p, h, hx⟩
      · exact .inr ⟨p, hp, h, hx⟩
    · rintro (⟨p, hp, hx⟩ | ⟨p, hp, -, hx⟩)
      · exact ⟨p, mem p hp, hx⟩
      · exact ⟨p, hp, hx⟩
  · ext x
    rw [Set.mem_union, mem_segsPts_flatMap, mem_segsPts_flatMap]
    constructor
    · rintro ⟨p, hp, hx⟩
      rcases cases p hp with h | h
      · exact .inl ⟨p, h, hx⟩
      · exact .inr ⟨p, hp, h, hx⟩
    · rintro (⟨p, hp, hx⟩ | ⟨p, hp, -, hx⟩)
      · exact ⟨p, mem p hp, hx⟩
      · exact ⟨p, hp, hx⟩
  · ext x
    constructor
    · exact fun hx => ⟨fun p hp => hx p (mem p hp), fun p hp _ => hx p hp⟩
    · rintro ⟨h1, h2⟩ p hp
      rcases cases p hp with h | h
      · exact h1 p h
      · exact h2 p hp h
  · intro x hx p hp hd
    obtain ⟨L, o⟩ := h.one hp
    obtain ⟨h1, h2⟩ := out p hp hd x hx
    exact (o.outline.cover h2).resolve_left h1
  · refine Set.eq_empty_iff_forall_notMem.mpr ?_
    rintro x ⟨⟨p, hp, hd, hx⟩, h2⟩
    obtain ⟨L, o⟩ := h.one hp
    exact o.outline.not_both hx (h2 p hp hd)
  · refine Set.eq_empty_iff_forall_notMem.mpr ?_
    rintro x ⟨⟨p, hp, hd, hx⟩, h2⟩
    obtain ⟨L, o⟩ := h.one hp
    exact o.outline.exterior (h2 p hp hd) hx
  · refine Set.eq_empty_iff_forall_notMem.mpr ?_
    rintro x ⟨hx, ⟨p, hp, hd, h2⟩ | ⟨p, hp, hd, h2⟩⟩
    · exact (out p hp hd x hx).1 h2
    · exact (out p hp hd x hx).2 h2
  · intro hn
    unfold allKept at hn
    rw [List.all_eq_false] at hn
    obtain ⟨p, hp, hd⟩ := hn
    simp only [Bool.not_eq_true, Bool.not_eq_false'] at hd
    obtain ⟨L, o⟩ := h.one hp
    obtain ⟨x, hx⟩ := (o.outline.inhabited (h.ne p hp)).1
    exact ⟨x, p, hp, hd, hx⟩
  · intro hall
    unfold kept
    rw [List.filter_eq_self]
    exact List.all_eq_true.mp hall

/-- The goal of several parts, not all of which are skipped, after the test. -/
theorem Parts.marks {test L : List (SegmentEndpoints K)} (nT : ∀ e ∈ test, e.1 ≠ e.2)
    (nL : ∀ e ∈ L, e.1 ≠ e.2) :
    ((State.empty.register true test).register false L).Fresh ∧
    ((State.empty.register true test).register false L).marks false = L.map marked ∧
    ((State.empty.register true test).register false L).marks true = test.map marked := by
  have h0 : (State.empty : State K).Fresh := .empty
  have h1 := h0.register true nT
  refine ⟨h1.register false nL, ?_, ?_⟩ <;>
    rw [h1.marks_register false nL, h0.marks_register true nT, State.marks_empty] <;> simp

theorem Parts.ne_kept (h : Parts boxOf segmentsOf edges int ext parts) {testBox : Box K}
    (hk : kept boxOf testBox parts ≠ []) : (kept boxOf testBox parts).flatMap edges ≠ [] := by
  obtain ⟨p, hp⟩ := List.exists_mem_of_ne_nil _ hk
  intro e
  rw [List.flatMap_eq_nil_iff] at e
  exact h.ne p (List.mem_filter.mp hp).1 (e p hp)

theorem Parts.bound (h : Parts boxOf segmentsOf edges int ext parts) {testBox : Box K} {m : K}
    (hm : ∀ p ∈ kept boxOf testBox parts, (boxOf p).maxX ≤ m) :
    ∀ x ∈ segsPts ((kept boxOf testBox parts).flatMap edges), x.x ≤ m := by
  intro x hx
  obtain ⟨p, hp, hx⟩ := mem_segsPts_flatMap.mp hx
  exact ((h.box p (List.mem_filter.mp hp).1).le_maxX x (.inr hx)).trans (hm p hp)

theorem kept_sublist (testBox : Box K) : (kept boxOf testBox parts).Sublist parts :=
  List.filter_sublist

/-- Boxes are disjoint exactly if a vertical or a horizontal line separates them. -/
theorem box.disjointWith_iff {a b : Box K} {S T : Set (Point K)} (ha : IsBoxOf a S) (hb : IsBoxOf b T) :
    box.disjointWith a b = true ↔ BoxesApart S T := by
  unfold box.disjointWith BoxesApart
  simp only [Bool.or_eq_true, decide_eq_true_eq]
  constructor
  · rintro (((h | h) | h) | h)
    · exact .inl fun p hp q hq => ((ha.le_maxX p hp).trans_lt h).trans_le (hb.minX_le q hq)
    · exact .inr (.inl fun p hp q hq => ((hb.le_maxX q hq).trans_lt h).trans_le (ha.minX_le p hp))
    · exact .inr (.inr (.inl fun p hp q hq =>
        ((ha.le_maxY p hp).trans_lt h).trans_le (hb.minY_le q hq)))
    · exact .inr (.inr (.inr fun p hp q hq =>
        ((hb.le_maxY q hq).trans_lt h).trans_le (ha.minY_le p hp)))
  · rintro (h | h | h | h)
    · obtain ⟨p, hp, ep⟩ := ha.maxX_mem
      obtain ⟨q, hq, eq⟩ := hb.minX_mem
      exact .inl (.inl (.inl (by rw [← ep, ← eq]; exact h p hp q hq)))
    · obtain ⟨p, hp, ep⟩ := ha.minX_mem
      obtain ⟨q, hq, eq⟩ := hb.maxX_mem
      exact .inl (.inl (.inr (by rw [← ep, ← eq]; exact h p hp q hq)))
    · obtain ⟨p, hp, ep⟩ := ha.maxY_mem
      obtain ⟨q, hq, eq⟩ := hb.minY_mem
      exact .inl (.inr (by rw [← ep, ← eq]; exact h p hp q hq))
    · obtain ⟨p, hp, ep⟩ := ha.minY_mem
      obtain ⟨q, hq, eq⟩ := hb.maxY_mem
      exact .inr (by rw [← ep, ← eq]; exact h p hp q hq)

/-- The parts which are not skipped. -/
theorem Parts.mem_kept_iff (h : Parts boxOf segmentsOf edges int ext parts) {S : Set (Point K)}
    {testBox : Box K} (hb : IsBoxOf testBox S) {p : α} : p ∈ kept boxOf testBox parts ↔
      p ∈ parts ∧ ¬ BoxesApart S (int p ∪ segsPts (edges p)) := by
  unfold kept
  rw [List.mem_filter]
  refine and_congr_right fun hp => ?_
  rw [← Orient.box.disjointWith_iff hb (h.box p hp)]
  simp

/-- Edges of skipped parts cross no edges. -/
theorem Parts.edgesCross_iff (h : Parts boxOf segmentsOf edges int ext parts) {S : Set (Point K)}
    {testBox : Box K} (hb : IsBoxOf testBox S) {T : List (Segment K)} (hT : segsPts T ⊆ S) :
    EdgesCross ((kept boxOf testBox parts).flatMap edges) T ↔ EdgesCross (parts.flatMap edges) T := by
  have mem : ∀ p ∈ parts, ∀ x ∈ segsPts T, x ∈ segsPts (edges p) → p ∈ kept boxOf testBox parts := by
    intro p hp x hx h'
    have := box.not_disjointWith hb (h.box p hp) (hT hx) (.inr h')
    simp [kept, hp, this]
  have sub : segsPts ((kept boxOf testBox parts).flatMap edges) ⊆ segsPts (parts.flatMap edges) := by
    intro x hx
    obtain ⟨p, hp, hx⟩ := mem_segsPts_flatMap.mp hx
    exact mem_segsPts_flatMap.mpr ⟨p, (kept_sublist testBox).subset hp, hx⟩
  constructor
  · rintro ⟨u, hu, v, hv, p, hp, nu, nv, hl⟩
    obtain ⟨q, hq, hv⟩ := List.mem_flatMap.mp hv
    refine ⟨u, hu, v, List.mem_flatMap.mpr ⟨q, (kept_sublist testBox).subset hq, hv⟩, p, hp, nu, nv, ?_⟩
    rcases hl with ⟨a, h1, h2, h3⟩ | hl
    · refine .inl ⟨a, h1, h2, fun x hx hm => h3 x hx ?_⟩
      obtain ⟨q, hq, hm⟩ := mem_segsPts_flatMap.mp hm
      exact mem_segsPts_flatMap.mpr ⟨q, mem q hq x ⟨u, hu, h2 hx⟩ hm, hm⟩
    · exact .inr hl
  · rintro ⟨u, hu, v, hv, p, hp, nu, nv, hl⟩
    obtain ⟨q, hq, hv⟩ := List.mem_flatMap.mp hv
    have hq := mem q hq p ⟨u, hu, hp.1⟩ ⟨v, hv, hp.2⟩
    refine ⟨u, hu, v, List.mem_flatMap.mpr ⟨q, hq, hv⟩, p, hp, nu, nv, ?_⟩
    rcases hl with ⟨a, h1, h2, h3⟩ | hl
    · exact .inl ⟨a, h1, h2, fun x hx hm => h3 x hx (sub hm)⟩
    · exact .inr hl

/-- What is answered about an area and a goal of several parts. -/
theorem Parts.compound' {context : Context K} (hc : context.Exact)
    (h : Parts boxOf segmentsOf edges int ext parts) {test : List (SegmentEndpoints K)}
    {T : List (Segment K)} {I E : Set (Point K)} (ot : Oriented false test T I E)
    {testBox : Box K} (hb : IsBoxOf testBox (I ∪ segsPts T)) :
    ∃ r, (do
        let (noneDisjoint, registered) ← registerParts boxOf segmentsOf testBox (.ok test) parts true none
        match registered with
        | none => return .disjoint
        | some (maxX, s) =>
          let relation ← runCompound context s (min maxX testBox.maxX)
          return correctSkipped noneDisjoint relation : Py Relation) = .ok r ∧
      CompoundAnswer (EdgesCross (parts.flatMap edges) T) I (segsPts T) E {x | ∃ p ∈ parts, x ∈ int p}
        (segsPts (parts.flatMap edges)) {x | ∀ p ∈ parts, x ∈ ext p} r := by
  obtain ⟨L, hL, oL⟩ := h.outline _ (kept_sublist testBox)
  obtain ⟨I₂, B₂, E₂, e1, e2, e3, f1, f2, f3, f4, f5, f6⟩ := h.split hb
  rw [← h.edgesCross_iff hb Set.subset_union_right]
  have et : I ∪ segsPts T ∪ E = Set.univ := by
    ext x
    simp only [Set.mem_union, Set.mem_univ, iff_true]
    by_cases hx : x ∈ segsPts T
    · exact .inl (.inr hx)
    · rcases ot.outline.cover hx with h | h
      · exact .inl (.inl h)
      · exact .inr h
  rcases registerParts_none boxOf segmentsOf testBox (test := test) hL true with
    ⟨hk, nd, hr⟩ | ⟨hk, m, hr, hm⟩
  · refine ⟨.disjoint, by rw [hr]; rfl, ?_, fun _ => ?_⟩
    · rw [hk]
      rintro ⟨-, -, v, hv, -⟩
      exact absurd hv (by simp)
    rw [e1, e2, hk]
    refine Set.eq_empty_iff_forall_notMem.mpr fun x ⟨h1, h2⟩ => ?_
    have := Set.eq_empty_iff_forall_notMem.mp f4 x
    rcases h2 with (⟨p, hp, -⟩ | h2) | (h2 | h2)
    · cases hp
    · exact this ⟨h1, .inl h2⟩
    · obtain ⟨p, hp, -⟩ := h2
      cases hp
    · exact this ⟨h1, .inr h2⟩
  · obtain ⟨hf, m1, m2⟩ := Parts.marks ot.ne oL.ne
    have nG := h.ne_kept hk
    obtain ⟨r, hr', hrel⟩ := Outline.compound' hc hf (.of_eq m1) (.of_eq m2)
      (by simpa using oL.outline) (by simpa using ot.outline) (h.bound hm)
      (fun x hx => hb.le_maxX x (.inr hx))
    refine ⟨correctSkipped (allKept boxOf testBox parts) r,
      by rw [hr]; simp [hr', bind, Except.bind, pure, Except.pure], fun hX => ?_, fun hX => ?_⟩
    · rw [hrel.1 hX]
      cases allKept boxOf testBox parts <;> rfl
    · replace hrel := hrel.2 hX
      by_cases ha : allKept boxOf testBox parts = true
      · rw [ha]
        rw [f6 ha] at hrel
        simpa [correctSkipped] using hrel
      · rw [Bool.not_eq_true] at ha
        rw [ha, e1, e2, e3]
        have near := fun z hz => (oL.outline.near ot.outline (z := z) hz).1
        obtain ⟨w, hw⟩ := List.exists_mem_of_ne_nil _ nG
        have hB : (segsPts ((kept boxOf testBox parts).flatMap edges)).Nonempty :=
          ⟨w.start, w, hw, w.start_mem⟩
        refine hrel.skip f1 ?_ (f5 ha) (oL.outline.inhabited nG).1 hB f2 f3
          (fun z hz h => (near z hz h).2)
        intro x hx
        have hu : x ∈ I ∪ segsPts T ∪ E := et ▸ Set.mem_univ x
        exact hu.resolve_left fun h' => Set.eq_empty_iff_forall_notMem.mp f4 x ⟨h', .inl hx⟩

/-- What is answered about an area and a goal of several parts. -/
theorem Parts.compound {context : Context K} (hc : context.Exact)
    (h : Parts boxOf segmentsOf edges int ext parts) {test : List (SegmentEndpoints K)}
    {T : List (Segment K)} {I E : Set (Point K)} (ot : Oriented false test T I E)
    {testBox : Box K} (hb : IsBoxOf testBox (I ∪ segsPts T)) {Q : Prop}
    (hX : Crosses ((kept boxOf testBox parts).flatMap edges) T → Q) :
    ∃ r, (do
        let (noneDisjoint, registered) ← registerParts boxOf segmentsOf testBox (.ok test) parts true none
        match registered with
        | none => return .disjoint
        | some (maxX, s) =>
          let relation ← runCompound context s (min maxX testBox.maxX)
          return correctSkipped noneDisjoint relation : Py Relation) = .ok r ∧
      (CompoundRel I (segsPts T) E {x | ∃ p ∈ parts, x ∈ int p} (segsPts (parts.flatMap edges))
        {x | ∀ p ∈ parts, x ∈ ext p} r ∨ (r = .overlap ∧ Q)) := by
  obtain ⟨r, hr, ha⟩ := h.compound' hc ot hb
  obtain ⟨L, -, oL⟩ := h.outline _ (kept_sublist testBox)
  refine ⟨r, hr, ha.cases.imp_right fun ⟨h1, h2⟩ => ⟨h1, hX ?_⟩⟩
  rw [← h.edgesCross_iff hb Set.subset_union_right] at h2
  exact h2.crosses oL.outline.nondegenerate ot.outline.nondegenerate

/-- What is answered about segments and a goal of several parts. -/
theorem Parts.linearCompound' {context : Context K} (hc : context.Exact)
    (h : Parts boxOf segmentsOf edges int ext parts) {test : List (SegmentEndpoints K)}
    {T : List (Segment K)} (pT : (test.map sorted).Perm (T.map Segment.up))
    (ne : ∀ e ∈ test, e.1 ≠ e.2) (aT : Apart T)
    {testBox : Box K} (hb : IsBoxOf testBox (segsPts T)) :
    ∃ r, (do
        let (_, registered) ← registerParts boxOf segmentsOf testBox (.ok test) parts true none
        match registered with
        | none => return .disjoint
        | some (maxX, s) => runLinearCompound context s (min testBox.maxX maxX) : Py Relation) = .ok r ∧
      LinearAnswer (EdgesCross (parts.flatMap edges) T)
        (∀ p ∈ parts, ¬ BoxesApart (segsPts T) (int p ∪ segsPts (edges p)) →
          segsPts (edges p) ⊆ segsPts T)
        (segsPts T) {x | ∃ p ∈ parts, x ∈ int p} (segsPts (parts.flatMap edges))
        {x | ∀ p ∈ parts, x ∈ ext p} r := by
  obtain ⟨L, hL, oL⟩ := h.outline _ (kept_sublist testBox)
  obtain ⟨I₂, B₂, E₂, e1, e2, e3, f1, f2, f3, f4, f5, f6⟩ := h.split hb
  rw [← h.edgesCross_iff hb subset_rfl]
  have eY : (∀ p ∈ parts, ¬ BoxesApart (segsPts T) (int p ∪ segsPts (edges p)) →
      segsPts (edges p) ⊆ segsPts T) ↔
      segsPts ((kept boxOf testBox parts).flatMap edges) ⊆ segsPts T := by
    constructor
    · intro hall x hx
      obtain ⟨p, hp, hx⟩ := mem_segsPts_flatMap.mp hx
      obtain ⟨h1, h2⟩ := (h.mem_kept_iff hb).mp hp
      exact hall p h1 h2 hx
    · intro hall p h1 h2 x hx
      exact hall (mem_segsPts_flatMap.mpr ⟨p, (h.mem_kept_iff hb).mpr ⟨h1, h2⟩, hx⟩)
  rw [eY]
  rcases registerParts_none boxOf segmentsOf testBox (test := test) hL true with
    ⟨hk, nd, hr⟩ | ⟨hk, m, hr, hm⟩
  · have hout : segsPts T ⊆ {x | ∀ p ∈ parts, x ∈ ext p} := by
      rw [e3, hk]
      intro x hx
      exact ⟨fun p hp => absurd hp (List.not_mem_nil), f1 hx⟩
    refine ⟨.disjoint, by rw [hr]; rfl, ?_, ?_, fun _ _ => hout⟩
    · rw [hk]
      rintro ⟨-, -, v, hv, -⟩
      exact absurd hv (by simp)
    · rintro - - ⟨x, x1, p, hp, x2⟩
      obtain ⟨L, o⟩ := h.one hp
      exact absurd (hout x1 p hp) fun h' => o.outline.not_both x2 h'
  · obtain ⟨hf, m1, m2⟩ := Parts.marks ne oL.ne
    have nG := h.ne_kept hk
    obtain ⟨r, hr', hrel⟩ := Outline.linearCompound' hc hf (T := T) (.of_eq m1)
      (by rw [m2, map_marked_fst]; exact pT)
      (by simpa using oL.outline) aT nG (h.bound hm) hb.le_maxX
    rw [min_comm] at hr'
    have eI : (segsPts T ∩ {x | ∃ p ∈ parts, x ∈ int p}).Nonempty ↔
        (segsPts T ∩ {x | ∃ p ∈ kept boxOf testBox parts, x ∈ int p}).Nonempty := by
      rw [e1]
      constructor
      · rintro ⟨x, x1, x2 | x2⟩
        · exact ⟨x, x1, x2⟩
        · exact absurd ⟨x2, f1 x1⟩ (Set.eq_empty_iff_forall_notMem.mp f2 x)
      · exact fun ⟨x, x1, x2⟩ => ⟨x, x1, .inl x2⟩
    have eE : (segsPts T ∩ {x | ∀ p ∈ parts, x ∈ ext p}).Nonempty ↔
        (segsPts T ∩ {x | ∀ p ∈ kept boxOf testBox parts, x ∈ ext p}).Nonempty := by
      rw [e3]
      constructor
      · exact fun ⟨x, x1, x2⟩ => ⟨x, x1, x2.1⟩
      · exact fun ⟨x, x1, x2⟩ => ⟨x, x1, x2, f1 x1⟩
    refine ⟨r, by rw [hr]; exact hr', hrel.1, ?_, ?_⟩
    · rw [eI, eE]
      exact hrel.2.1
    · rw [eI, eE]
      intro hX hY
      rw [e1, e2, e3]
      exact (hrel.2.2 hX hY).skip f1 f2 f3

/-- What is answered about segments and a goal of several parts. -/
theorem Parts.linearCompound {context : Context K} (hc : context.Exact)
    (h : Parts boxOf segmentsOf edges int ext parts) {test : List (SegmentEndpoints K)}
    {T : List (Segment K)} (pT : (test.map sorted).Perm (T.map Segment.up))
    (ne : ∀ e ∈ test, e.1 ≠ e.2) (vT : SegmentsValid T)
    {testBox : Box K} (hb : IsBoxOf testBox (segsPts T)) {Q : Prop}
    (hX : Crosses ((kept boxOf testBox parts).flatMap edges) T → Q) :
    ∃ r, (do
        let (_, registered) ← registerParts boxOf segmentsOf testBox (.ok test) parts true none
        match registered with
        | none => return .disjoint
        | some (maxX, s) => runLinearCompound context s (min testBox.maxX maxX) : Py Relation) = .ok r ∧
      (LinearCompoundRel (segsPts T) {x | ∃ p ∈ parts, x ∈ int p} (segsPts (parts.flatMap edges))
        {x | ∀ p ∈ parts, x ∈ ext p} r ∨
        (r = .touch ∧ (∃ p ∈ parts, segsPts (edges p) ⊆ segsPts T) ∧
          (segsPts T ∩ {x | ∃ p ∈ parts, x ∈ int p}).Nonempty ∧
          (segsPts T ∩ {x | ∀ p ∈ parts, x ∈ ext p}).Nonempty) ∨ (r = .cross ∧ Q)) := by
  obtain ⟨r, hr, ha⟩ := h.linearCompound' hc pT ne vT.2 hb
  obtain ⟨L, -, oL⟩ := h.outline _ (kept_sublist testBox)
  refine ⟨r, hr, ?_⟩
  rcases ha.cases with ha | ⟨h1, -, h2, h3, h4⟩ | ⟨h1, h2⟩
  · exact .inl ha
  · refine .inr (.inl ⟨h1, ?_, h3, h4⟩)
    obtain ⟨x, x1, p, hp, x2⟩ := h3
    refine ⟨p, hp, h2 p hp fun hd => ?_⟩
    rcases hd with hd | hd | hd | hd <;> exact lt_irrefl _ (hd x x1 x (.inl x2))
  · rw [← h.edgesCross_iff hb subset_rfl] at h2
    exact .inr (.inr ⟨h1, hX (h2.crosses oL.outline.nondegenerate vT.1)⟩)

end

/-! ### multiregions, polygons and multipolygons -/

/-- A segment contains no contour. -/
theorem Contour.Simple.not_subset_segment {c : Contour K} (h : c.Simple) {s : Segment K}
    (hs : s.Nondegenerate) : ¬ c.pts ⊆ s.pts := by
  intro hsub
  obtain ⟨x, hx⟩ := h.interior_nonempty
  have col : ∀ y ∈ s.pts, cross s.start s.finish y = 0 := fun y hy => ((Segment.mem_pts_iff _ _).mp hy).1
  set a := s.finish.x - s.start.x
  set b := s.finish.y - s.start.y
  have hab : a ≠ 0 ∨ b ≠ 0 := by
    by_contra hn
    push Not at hn
    refine hs (Point.ext ?_ ?_)
    · exact (sub_eq_zero.mp hn.1).symm
    · exact (sub_eq_zero.mp hn.2).symm
  have hpos : 0 < a * a + b * b := by
    rcases hab with h | h
    · have := mul_self_pos.mpr h
      have := mul_self_nonneg b
      linarith
    · have := mul_self_pos.mpr h
      have := mul_self_nonneg a
      linarith
  obtain ⟨y, hy, t, ht, rfl⟩ := Contour.ray_meets (p := x) (d := ⟨-b, a⟩) (by
    rcases hab with h | h
    · exact .inr h
    · exact .inl (by simpa using h)) hx
  obtain ⟨z, hz, r, hr, rfl⟩ := Contour.ray_meets (p := x) (d := ⟨b, -a⟩) (by
    rcases hab with h | h
    · exact .inr (by simpa using h)
    · exact .inl h) hx
  have c1 := col _ (hsub hy)
  have c2 := col _ (hsub hz)
  unfold cross at c1 c2
  simp only at c1 c2
  have e : (t + r) * (a * a + b * b) = 0 := by
    simp only [a, b] at *
    linear_combination c1 - c2
  rcases mul_eq_zero.mp e with e | e
  · have ht0 : t = 0 := by linarith
    subst ht0
    refine hx.1 ?_
    have : (⟨x.x + 0 * -b, x.y + 0 * a⟩ : Point K) = x := by ext <;> simp
    exact this ▸ hy
  · exact hpos.ne' e

theorem Multiregion.Valid.sublist {m l : List (Contour K)} (h : Multiregion.Valid m)
    (hl : l.Sublist m) : Multiregion.Valid l :=
  ⟨fun c hc => h.simple c (hl.subset hc), h.apart.sublist hl⟩

theorem Multipolygon.Valid.sublist {m l : List (Polygon K)} (h : Multipolygon.Valid ⟨m⟩)
    (hl : l.Sublist m) : Multipolygon.Valid ⟨l⟩ :=
  ⟨fun c hc => h.valid c (hl.subset hc), h.apart.sublist hl⟩

theorem Multiregion.Valid.parts {context : Context K} (hc : context.Exact) {m : List (Contour K)}
    (h : Multiregion.Valid m) : Parts context.contourBox
      (fun c => region.toOrientedSegments c context) Contour.edgeList Contour.interior
      Contour.exterior m := by
  refine ⟨fun ps hps => ?_, fun c hcm => ?_, fun c hcm => ?_⟩
  · obtain ⟨L, h1, h2⟩ := (h.sublist hps).oriented hc false
    exact ⟨L, by rw [← gather_multiregion]; exact h1, h2⟩
  · exact (hc.contourBox c (h.simple c hcm).ne_nil).interior
  · exact Contour.edgeList_ne_nil (h.simple c hcm).ne_nil

/-- The holes of a polygon have no points outside of the border. -/
theorem Polygon.Valid.holes_inside {g : Polygon K} (h : g.Valid) :
    Multiregion.pts g.holes ⊆ g.border.interior ∪ g.border.pts := by
  rintro x ⟨d, hd, hx⟩
  by_cases hb : x ∈ g.border.pts
  · exact .inr hb
  · rcases Contour.cover hb with h' | h'
    · exact .inl h'
    · obtain ⟨L, -, o⟩ := (h.holes.simple d hd).oriented' reference.context_exact false
      obtain ⟨L', -, o'⟩ := h.border.oriented' reference.context_exact false
      obtain ⟨y, y1, y2⟩ := (o.outline.near o'.outline hx).2 h'
      exact absurd y2 (Contour.not_both (h.inside d hd y1))

theorem IsBoxOf.between {b : Box K} {S T : Set (Point K)} (h : IsBoxOf b T) (hS : IsBoxOf b S)
    {R : Set (Point K)} (h1 : S ⊆ R) (h2 : R ⊆ T) : IsBoxOf b R := by
  refine ⟨fun p hp => h.minX_le p (h2 hp), fun p hp => h.le_maxX p (h2 hp),
    fun p hp => h.minY_le p (h2 hp), fun p hp => h.le_maxY p (h2 hp), ?_, ?_, ?_, ?_⟩
  · obtain ⟨p, hp, e⟩ := hS.minX_mem; exact ⟨p, h1 hp, e⟩
  · obtain ⟨p, hp, e⟩ := hS.maxX_mem; exact ⟨p, h1 hp, e⟩
  · obtain ⟨p, hp, e⟩ := hS.minY_mem; exact ⟨p, h1 hp, e⟩
  · obtain ⟨p, hp, e⟩ := hS.maxY_mem; exact ⟨p, h1 hp, e⟩

theorem Polygon.Valid.box {context : Context K} (hc : context.Exact) {g : Polygon K} (h : g.Valid) :
    IsBoxOf (context.polygonBox g) (g.interior ∪ g.pts) := by
  have hb := hc.polygonBox g h.border.ne_nil
  refine hb.interior.between hb (fun x hx => .inr (.inl hx)) ?_
  rintro x (hx | hx | hx)
  · exact .inl hx.1
  · exact .inr hx
  · exact h.holes_inside hx

theorem Polygon.edges_ne_nil {g : Polygon K} (h : g.Valid) : g.edges ≠ [] := by
  unfold Polygon.edges
  intro e
  exact Contour.edgeList_ne_nil h.border.ne_nil (List.append_eq_nil_iff.mp e).1

theorem Multipolygon.Valid.parts {context : Context K} (hc : context.Exact) {m : Multipolygon K}
    (h : Multipolygon.Valid m) : Parts context.polygonBox
      (fun c => polygon.toOrientedEdgesEndpoints c context) Polygon.edges Polygon.interior
      Polygon.exterior m.polygons := by
  obtain ⟨m⟩ := m
  refine ⟨fun ps hps => ?_, fun g hg => ?_, fun g hg => ?_⟩
  · obtain ⟨L, h1, h2⟩ := polygons_oriented hc (h.sublist hps) false
    exact ⟨L, by rw [← gather_multipolygon]; exact h1, h2⟩
  · rw [Polygon.segsPts_edges]
    exact (h.valid g hg).box hc
  · exact Polygon.edges_ne_nil (h.valid g hg)

end Orient
