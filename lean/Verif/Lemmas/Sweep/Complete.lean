import Verif.Lemmas.Sweep.Track
import Verif.Lemmas.Sweep.OpenLinear

/-! The answers of `process_open_linear_queue` tell everything about the operands. -/

set_option linter.unusedSectionVars false

namespace Orient.eventsQueue

variable {K : Type} [Field K] [LinearOrder K] [IsStrictOrderedRing K]

open State processing Props

/-- An operand is a part of the other one if and only if the sweep says so. -/
theorem Swept.subset_iff {context : Context K} {s d : State K} {stopX : K} {ems : List (Emitted K)}
    (h : Swept s stopX ems d) (hcomp : Complete s stopX ems) (hw : s.WF) {mg mt : K}
    (hg : ∀ x ∈ s.operand false, x.x ≤ mg) (ht : ∀ x ∈ s.operand true, x.x ≤ mt)
    (hstop : stopX = min mg mt) (b : Bool) :
    ((∀ e ∈ ems, e.fromTest = b → e.relation = .overlap) ∧ ¬ NextFrom context d b) ↔
      s.operand b ⊆ s.operand (!b) := by
  refine ⟨fun hh => h.subset (context := context) hw hg ht hstop hh.1 hh.2, fun hs =>
    ⟨hcomp.subset b hs, fun hn => ?_⟩⟩
  have hop : d.operand b = s.operand b := by
    obtain ⟨o, ho⟩ := h.runs.refines hw
    exact ho.operand b
  unfold NextFrom peekFromTest at hn
  cases hp : peek? context d with
  | none => rw [hp] at hn; cases hn
  | some e =>
    rw [hp, Option.map_some] at hn
    have hb := Option.some.inj hn
    have hm := peek?_mem hp
    have h1 := evStart_mem_operand h.wf (queued_valid h.wf hm)
    rw [hb, hop] at h1
    have h2 := hs h1
    have h3 := h.beyond e hm
    rw [hstop, min_lt_iff] at h3
    have : (d.evStart e).x ≤ mg ∧ (d.evStart e).x ≤ mt := by
      cases b
      · exact ⟨hg _ h1, ht _ h2⟩
      · exact ⟨hg _ h2, ht _ h1⟩
    rcases h3 with h3 | h3
    · exact absurd this.1 (not_le.mpr h3)
    · exact absurd this.2 (not_le.mpr h3)

theorem Swept.meet_iff {s d : State K} {stopX : K} {ems : List (Emitted K)}
    (h : Swept s stopX ems d) (hcomp : Complete s stopX ems) {mg mt : K}
    (hg : ∀ x ∈ s.operand false, x.x ≤ mg) (ht : ∀ x ∈ s.operand true, x.x ≤ mt)
    (hstop : stopX = min mg mt) :
    (∃ em ∈ ems, em.relation ≠ .disjoint) ↔ (s.operand true ∩ s.operand false).Nonempty := by
  constructor
  · rintro ⟨em, hem, h1⟩
    exact (h.sound em hem).2.2.1 h1
  · rintro ⟨x, h1, h2⟩
    exact hcomp.common x h1 h2 (hstop ▸ le_min (hg x h2) (ht x h1))

theorem Swept.shares_iff {s d : State K} {stopX : K} {ems : List (Emitted K)}
    (h : Swept s stopX ems d) (hcomp : Complete s stopX ems) {mg mt : K}
    (hg : ∀ x ∈ s.operand false, x.x ≤ mg) (ht : ∀ x ∈ s.operand true, x.x ≤ mt)
    (hstop : stopX = min mg mt) :
    (∃ em ∈ ems, em.relation = .overlap) ↔ SharesPiece (s.operand true) (s.operand false) := by
  constructor
  · rintro ⟨em, hem, h1⟩
    obtain ⟨k1, k2, -, k3⟩ := h.sound em hem
    have k3 := k3 h1
    cases hb : em.fromTest <;> rw [hb] at k2 k3
    · exact ⟨⟨em.start, em.finish⟩, k1.ne, k3, k2⟩
    · exact ⟨⟨em.start, em.finish⟩, k1.ne, k2, k3⟩
  · rintro ⟨u, hu, h1, h2⟩
    exact hcomp.shares u hu h1 h2 fun x hx => hstop ▸ le_min (hg x (h2 hx)) (ht x (h1 hx))

theorem sharesPiece_of_subset {S T : Set (Point K)} {u : Segment K} (hu : u.Nondegenerate)
    (h : u.pts ⊆ S) (hs : S ⊆ T) : SharesPiece S T := ⟨u, hu, h, h.trans hs⟩

/-- `process_open_linear_queue` answers the relation of the operands. -/
theorem runOpenLinear_exact {context : Context K} (hc : context.Exact) {s : State K}
    {G T : List (Segment K)} (h : Registered s G T) (hG : G ≠ []) (hT : T ≠ [])
    (vG : SegmentsValid G) (vT : SegmentsValid T) {mg mt : K}
    (hg : ∀ x ∈ segsPts G, x.x ≤ mg) (ht : ∀ x ∈ segsPts T, x.x ≤ mt) :
    ∃ r, runOpenLinear context s (min mg mt) = .ok r ∧ SetsRel (segsPts T) (segsPts G) r := by
  unfold runOpenLinear
  have hcl := h.no_clash vG vT
  obtain ⟨f, hf⟩ : ∃ f, (sweep true context (min mg mt) s).2 = .ok f := by
    rcases sweep_ends true hc (min mg mt) h.fresh.wf h.fresh.length with
      ⟨ems, d, -, -, -, h4⟩ | ⟨-, h2⟩
    · exact ⟨_, h4⟩
    · exact absurd h2 hcl
  have hsw := sweep_swept true hc (min mg mt) h.fresh hf
  have hcomp := sweep_complete true hc (min mg mt) h.fresh hcl hf
  obtain ⟨r, hr, c1, c2, c3, c4, c5, c6, c7⟩ :=
    C28_open_linear context (sweep true context (min mg mt) s).1 f
  rw [show ((sweep true context (min mg mt) s).1, Except.ok f) = sweep true context (min mg mt) s from
    by rw [← hf]] at hr
  refine ⟨r, hr, ?_⟩
  have hw := h.fresh.wf
  obtain ⟨uG, huG, hsG⟩ : ∃ u : Segment K, u.Nondegenerate ∧ u.pts ⊆ segsPts G := by
    obtain ⟨u, hu⟩ := List.exists_mem_of_ne_nil G hG
    exact ⟨u, vG.1 u hu, fun x hx => ⟨u, hu, hx⟩⟩
  obtain ⟨uT, huT, hsT⟩ : ∃ u : Segment K, u.Nondegenerate ∧ u.pts ⊆ segsPts T := by
    obtain ⟨u, hu⟩ := List.exists_mem_of_ne_nil T hT
    exact ⟨u, vT.1 u hu, fun x hx => ⟨u, hu, hx⟩⟩
  rw [← h.goalPts] at hg hsG ⊢
  rw [← h.testPts] at ht hsT ⊢
  have t1 := hsw.subset_iff (context := context) hcomp hw hg ht rfl true
  have t2 := hsw.subset_iff (context := context) hcomp hw hg ht rfl false
  have t3 := hsw.meet_iff hcomp hg ht rfl
  have t4 := hsw.shares_iff hcomp hg ht rfl
  simp only [t1, t2, Bool.not_true, Bool.not_false] at c1 c2 c3 c4 c5 c6 c7
  have no : (∀ e ∈ (sweep true context (min mg mt) s).1, e.relation ≠ .overlap) →
      ¬ SharesPiece (s.operand true) (s.operand false) := by
    intro hn hs
    obtain ⟨em, hem, h1⟩ := t4.mpr hs
    exact hn em hem h1
  have range := runOpenLinear_answers context s (min mg mt) r hr
  unfold linearLinear at range
  simp only [List.mem_cons, List.not_mem_nil, or_false] at range
  rcases range with rfl | rfl | rfl | rfl | rfl | rfl | rfl
  · obtain ⟨-, -, h1⟩ := c7.mp rfl
    refine Set.not_nonempty_iff_eq_empty.mp ?_
    rw [← t3]
    rintro ⟨em, hem, h2⟩
    exact h2 (h1 em hem)
  · obtain ⟨-, -, h1, em, hem, h2⟩ := c6.mp rfl
    exact ⟨t3.mp ⟨em, hem, by rw [h2]; decide⟩, no fun e he => (h1 e he).1⟩
  · obtain ⟨-, -, h1, em, hem, h2⟩ := c5.mp rfl
    exact ⟨t3.mp ⟨em, hem, by rw [h2]; decide⟩, no h1⟩
  · obtain ⟨h1, h2, h3⟩ := c4.mp rfl
    exact ⟨h1, h2, t4.mp h3⟩
  · obtain ⟨h1, h2⟩ := c3.mp rfl
    exact ⟨h2, h1⟩
  · obtain ⟨h1, h2⟩ := c1.mp rfl
    exact Set.Subset.antisymm h1 h2
  · exact c2.mp rfl

end Orient.eventsQueue
