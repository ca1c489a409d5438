import Verif.Lemmas.Transversal

/-! The classes of `SegmentsRel` exclude each other and cover all pairs of segments. -/

set_option linter.unusedSectionVars false

namespace Orient

variable {K : Type} [Field K] [LinearOrder K] [IsStrictOrderedRing K]

theorem Segment.pts_nontrivial {s : Segment K} (h : s.Nondegenerate) : s.pts.Nontrivial :=
  ⟨_, s.start_mem, _, s.finish_mem, h⟩

/-- The number of common points determined by the class. -/
theorem SegmentsRel.nontrivial {t g : Segment K} (ht : t.Nondegenerate) (hg : g.Nondegenerate)
    {r : Relation} (h : SegmentsRel t g r)
    (hr : r ≠ .touch ∧ r ≠ .cross ∧ r ≠ .disjoint) : (t.pts ∩ g.pts).Nontrivial := by
  cases r <;> simp only [ne_eq, not_true_eq_false, false_and, and_false, reduceCtorEq,
    not_false_eq_true, and_self] at hr
  · exact h.2.2
  · exact h.elim
  · exact h.elim
  · rw [Set.inter_eq_right.mpr h.1]; exact Segment.pts_nontrivial hg
  · have h : t.pts = g.pts := h
    rw [h, Set.inter_self]; exact Segment.pts_nontrivial hg
  · rw [Set.inter_eq_left.mpr h.1]; exact Segment.pts_nontrivial ht
  · exact h.elim
  · exact h.elim

/-- Two segments stand in at most one relation. -/
theorem SegmentsRel.unique {t g : Segment K} (ht : t.Nondegenerate) (hg : g.Nondegenerate)
    {r r' : Relation} (h : SegmentsRel t g r) (h' : SegmentsRel t g r') : r = r' := by
  have single : ∀ {r}, SegmentsRel t g r → r = .touch ∨ r = .cross → ∃ p, t.pts ∩ g.pts = {p} := by
    rintro r h (rfl | rfl)
    · exact ⟨_, h.choose_spec.1⟩
    · exact ⟨_, h.choose_spec.1⟩
  by_cases h1 : (t.pts ∩ g.pts).Nontrivial
  · have n1 : ∀ {r}, SegmentsRel t g r → r ≠ .touch ∧ r ≠ .cross ∧ r ≠ .disjoint := by
      intro r h
      refine ⟨?_, ?_, ?_⟩
      · intro hr
        obtain ⟨p, hp⟩ := single h (Or.inl hr)
        rw [hp] at h1; exact Set.not_nontrivial_singleton h1
      · intro hr
        obtain ⟨p, hp⟩ := single h (Or.inr hr)
        rw [hp] at h1; exact Set.not_nontrivial_singleton h1
      · rintro rfl
        have h : t.pts ∩ g.pts = ∅ := h
        rw [h] at h1; exact Set.not_nontrivial_empty h1
    have a := n1 h
    have b := n1 h'
    by_cases s1 : t.pts ⊆ g.pts <;> by_cases s2 : g.pts ⊆ t.pts
    all_goals
      cases r <;> cases r' <;> first
        | rfl
        | exact absurd rfl a.1
        | exact absurd rfl a.2.1
        | exact absurd rfl a.2.2
        | exact absurd rfl b.1
        | exact absurd rfl b.2.1
        | exact absurd rfl b.2.2
        | exact absurd h id
        | exact absurd h' id
        | exact absurd s1 h.1
        | exact absurd s1 h'.1
        | exact absurd s2 h.2.1
        | exact absurd s2 h'.2.1
        | exact absurd s2 h.2
        | exact absurd s2 h'.2
        | exact absurd s1 h.2
        | exact absurd s1 h'.2
        | exact absurd h.1 s1
        | exact absurd h.1 s2
        | exact absurd h'.1 s1
        | exact absurd h'.1 s2
        | exact absurd h.le s1
        | exact absurd h'.le s1
        | exact absurd h.ge s2
        | exact absurd h'.ge s2
  · have n1 : ∀ {r}, SegmentsRel t g r → r = .touch ∨ r = .cross ∨ r = .disjoint := by
      intro r h
      by_contra hn
      push Not at hn
      exact h1 (h.nontrivial ht hg hn)
    have a := n1 h
    have b := n1 h'
    have e : ∀ {p q : Point K}, t.pts ∩ g.pts = {p} → t.pts ∩ g.pts = {q} → p = q := by
      intro p q hp hq
      rw [hp] at hq; exact Set.singleton_eq_singleton_iff.mp hq
    have ne : ∀ {p : Point K}, t.pts ∩ g.pts = {p} → t.pts ∩ g.pts = ∅ → False := by
      intro p hp hq
      rw [hp] at hq; exact Set.singleton_ne_empty _ hq
    rcases a with rfl | rfl | rfl <;> rcases b with rfl | rfl | rfl
    · rfl
    · obtain ⟨p, hp, hq⟩ := h
      obtain ⟨p', hp', hq'⟩ := h'
      rw [e hp hp'] at hq; tauto
    · obtain ⟨p, hp, hq⟩ := h; exact (ne hp h').elim
    · obtain ⟨p, hp, hq⟩ := h
      obtain ⟨p', hp', hq'⟩ := h'
      rw [e hp hp'] at hq; tauto
    · rfl
    · obtain ⟨p, hp, hq⟩ := h; exact (ne hp h').elim
    · obtain ⟨p, hp, hq⟩ := h'; exact (ne hp h).elim
    · obtain ⟨p, hp, hq⟩ := h'; exact (ne hp h).elim
    · rfl

/-- The relation seen from the other segment. -/
theorem SegmentsRel.symm {t g : Segment K} {r : Relation} (h : SegmentsRel t g r) :
    SegmentsRel g t r.complement := by
  cases r <;> simp only [Relation.complement]
  · change _ = ∅; rw [Set.inter_comm]; exact h
  · obtain ⟨p, hp, he⟩ := h; exact ⟨p, by rw [Set.inter_comm]; exact hp, he.symm⟩
  · obtain ⟨p, hp, he⟩ := h; exact ⟨p, by rw [Set.inter_comm]; exact hp, he.symm⟩
  · exact ⟨h.2.1, h.1, by rw [Set.inter_comm]; exact h.2.2⟩
  · exact h
  · exact h
  · exact h
  · exact Eq.symm h
  · exact h
  · exact h
  · exact h

theorem Segment.isEndpoint_reverse (s : Segment K) (p : Point K) :
    s.reverse.IsEndpoint p ↔ s.IsEndpoint p := by
  unfold IsEndpoint reverse; tauto

theorem Segment.Nondegenerate.reverse {s : Segment K} (h : s.Nondegenerate) :
    s.reverse.Nondegenerate := fun e => h e.symm

theorem SegmentsRel.congr {t g t' g' : Segment K} {r : Relation} (h : SegmentsRel t g r)
    (ht : t'.pts = t.pts) (hg : g'.pts = g.pts) (ht' : ∀ p, t'.IsEndpoint p ↔ t.IsEndpoint p)
    (hg' : ∀ p, g'.IsEndpoint p ↔ g.IsEndpoint p) : SegmentsRel t' g' r := by
  cases r <;> simp only [SegmentsRel, ht, hg, ht', hg'] at h ⊢ <;> exact h

theorem Context.Exact.relation_eq_iff {c : Context K} (hc : c.Exact) {t g : Segment K}
    (ht : t.Nondegenerate) (hg : g.Nondegenerate) (r : Relation) :
    c.segmentsRelation t g = r ↔ SegmentsRel t g r :=
  ⟨fun h => h ▸ hc.relation t g ht hg, fun h => (hc.relation t g ht hg).unique ht hg h⟩

end Orient
