import Verif.Lemmas.Sweep.Compound
import Verif.Model.Relate
import Verif.Props.Ranges

/-! The answers of `process_linear_compound_queue` and `process_compound_queue`. -/

set_option linter.unusedSectionVars false

namespace Orient

variable {K : Type} [Field K] [LinearOrder K] [IsStrictOrderedRing K]

open Segment State eventsQueue Props

/-! ### relations exclude each other -/

theorem LinearCompoundRel.unique {S I B E : Set (Point K)} (hS : S.Nonempty) (h1 : I ∩ B = ∅)
    (h2 : I ∩ E = ∅) (h3 : B ∩ E = ∅) {r r' : Relation} (h : LinearCompoundRel S I B E r)
    (h' : LinearCompoundRel S I B E r') : r = r' := by
  obtain ⟨x, hx⟩ := hS
  rw [Set.eq_empty_iff_forall_notMem] at h1 h2 h3
  have sub : ∀ {X Y : Set (Point K)}, (∀ y, y ∉ X ∩ Y) → S ⊆ X → ¬ (S ∩ Y).Nonempty :=
    fun hXY hs ⟨y, y1, y2⟩ => hXY y ⟨hs y1, y2⟩
  have c1 : ∀ y, y ∉ B ∩ I := fun y hy => h1 y hy.symm
  have c2 : ∀ y, y ∉ E ∩ I := fun y hy => h2 y hy.symm
  have c3 : ∀ y, y ∉ E ∩ B := fun y hy => h3 y hy.symm
  have ne : ∀ {X : Set (Point K)}, S ⊆ X → (S ∩ X).Nonempty := fun hs => ⟨x, hx, hs hx⟩
  have emp : ∀ {X : Set (Point K)}, S ∩ X = ∅ → ¬ (S ∩ X).Nonempty := by
    intro X h; rw [h]; exact Set.not_nonempty_empty
  have facts : ∀ q, LinearCompoundRel S I B E q → match q with
      | .disjoint => (S ∩ E).Nonempty ∧ ¬ (S ∩ I).Nonempty ∧ ¬ (S ∩ B).Nonempty
      | .within => (S ∩ I).Nonempty ∧ ¬ (S ∩ E).Nonempty ∧ ¬ (S ∩ B).Nonempty
      | .component => (S ∩ B).Nonempty ∧ ¬ (S ∩ E).Nonempty ∧ ¬ (S ∩ I).Nonempty
      | .enclosed => ¬ (S ∩ E).Nonempty ∧ (S ∩ I).Nonempty ∧ (S ∩ B).Nonempty
      | .touch => ¬ (S ∩ I).Nonempty ∧ (S ∩ E).Nonempty ∧ (S ∩ B).Nonempty
      | .cross => (S ∩ I).Nonempty ∧ (S ∩ E).Nonempty
      | _ => False := by
    intro q hq
    cases q <;> first | exact hq | skip
    · exact ⟨ne hq, sub c2 hq, sub c3 hq⟩
    · exact ⟨emp hq.1, hq.2⟩
    · exact ⟨ne hq, sub h3 hq, sub c1 hq⟩
    · exact ⟨emp hq.1, hq.2⟩
    · exact ⟨ne hq, sub h2 hq, sub h1 hq⟩
  have f := facts r h
  have f' := facts r' h'
  revert f f'
  clear facts h h' sub ne emp
  generalize (S ∩ E).Nonempty = a
  generalize (S ∩ I).Nonempty = b
  generalize (S ∩ B).Nonempty = c
  cases r <;> cases r' <;> first | (intros; rfl) | (intro f f'; exfalso; revert f f'; simp only; tauto)

theorem CompoundRel.unique {I B E I' B' E' : Set (Point K)} (hI : I.Nonempty) (hB : B.Nonempty)
    (hI' : I'.Nonempty) (hB' : B'.Nonempty) (h1 : I ∩ B = ∅) (h2 : I ∩ E = ∅)
    (h1' : I' ∩ B' = ∅) (h2' : I' ∩ E' = ∅) {r r' : Relation}
    (h : CompoundRel I B E I' B' E' r) (h' : CompoundRel I B E I' B' E' r') : r = r' := by
  obtain ⟨x, hx⟩ := hI
  obtain ⟨y, hy⟩ := hB
  obtain ⟨x', hx'⟩ := hI'
  obtain ⟨y', hy'⟩ := hB'
  rw [Set.eq_empty_iff_forall_notMem] at h1 h2 h1' h2'
  have facts : ∀ q, CompoundRel I B E I' B' E' q → match q with
      | .disjoint => ¬ (I ∩ I').Nonempty ∧ ¬ (B ∩ B').Nonempty
      | .touch => ¬ (I ∩ I').Nonempty ∧ (B ∩ B').Nonempty
      | .overlap => (I ∩ I').Nonempty ∧ (I ∩ E').Nonempty ∧ (E ∩ I').Nonempty
      | .equal => (I ∩ I').Nonempty ∧ ¬ (I ∩ E').Nonempty ∧ ¬ (E ∩ I').Nonempty ∧
          (B ∩ B').Nonempty ∧ ¬ (B ∩ I').Nonempty ∧ ¬ (B' ∩ I).Nonempty
      | .within => (I ∩ I').Nonempty ∧ ¬ (I ∩ E').Nonempty ∧ ¬ (B ∩ B').Nonempty ∧
          (B ∩ I').Nonempty ∧ ¬ (B' ∩ I).Nonempty
      | .cover => (I ∩ I').Nonempty ∧ ¬ (E ∩ I').Nonempty ∧ ¬ (B ∩ B').Nonempty ∧
          (B' ∩ I).Nonempty ∧ ¬ (B ∩ I').Nonempty
      | .component => (I ∩ I').Nonempty ∧ ¬ (I ∩ E').Nonempty ∧ (E ∩ I').Nonempty ∧
          (B ∩ B').Nonempty ∧ ¬ (B ∩ I').Nonempty
      | .composite => (I ∩ I').Nonempty ∧ ¬ (E ∩ I').Nonempty ∧ (I ∩ E').Nonempty ∧
          (B ∩ B').Nonempty ∧ ¬ (B' ∩ I).Nonempty
      | .enclosed => (I ∩ I').Nonempty ∧ ¬ (I ∩ E').Nonempty ∧ (B ∩ B').Nonempty ∧
          (B ∩ I').Nonempty ∧ ¬ (B' ∩ I).Nonempty
      | .encloses => (I ∩ I').Nonempty ∧ ¬ (E ∩ I').Nonempty ∧ (B ∩ B').Nonempty ∧
          (B' ∩ I).Nonempty ∧ ¬ (B ∩ I').Nonempty
      | .cross => False := by
    have aI : I ⊆ I' → (I ∩ I').Nonempty ∧ ¬ (I ∩ E').Nonempty ∧ ¬ (B' ∩ I).Nonempty :=
      fun hs => ⟨⟨x, hx, hs hx⟩, fun ⟨z, z1, z2⟩ => h2' z ⟨hs z1, z2⟩,
        fun ⟨z, z1, z2⟩ => h1' z ⟨hs z2, z1⟩⟩
    have aI' : I' ⊆ I → (I ∩ I').Nonempty ∧ ¬ (E ∩ I').Nonempty ∧ ¬ (B ∩ I').Nonempty :=
      fun hs => ⟨⟨x', hs hx', hx'⟩, fun ⟨z, z1, z2⟩ => h2 z ⟨hs z2, z1⟩,
        fun ⟨z, z1, z2⟩ => h1 z ⟨hs z2, z1⟩⟩
    intro q hq
    cases q
    · have hq : (I ∪ B) ∩ (I' ∪ B') = ∅ := hq
      rw [Set.eq_empty_iff_forall_notMem] at hq
      exact ⟨fun ⟨z, z1, z2⟩ => hq z ⟨.inl z1, .inl z2⟩, fun ⟨z, z1, z2⟩ => hq z ⟨.inr z1, .inr z2⟩⟩
    · exact ⟨fun ⟨z, z1, z2⟩ => h1 z ⟨z1, (hq.2 ⟨.inl z1, .inl z2⟩).1⟩, hq.1⟩
    · exact hq
    · exact hq
    · obtain ⟨a1, a2, a3⟩ := aI' (Set.subset_union_left.trans hq)
      have hq : I' ∪ B' ⊆ I := hq
      exact ⟨a1, a2, fun ⟨z, z1, z2⟩ => h1 z ⟨hq (.inr z2), z1⟩, ⟨y', hy', hq (.inr hy')⟩, a3⟩
    · obtain ⟨a1, a2, a3⟩ := aI' hq.1
      exact ⟨a1, a2, hq.2.2.2, hq.2.2.1, a3⟩
    · obtain ⟨a1, a2, a3⟩ := aI' hq.1
      exact ⟨a1, a2, hq.2.2, ⟨y', hq.2.1 hy', hy'⟩, fun ⟨z, z1, z2⟩ => h1 z ⟨z2, hq.2.1 z1⟩⟩
    · obtain ⟨a1, a2, a3⟩ := aI hq.1.subset
      obtain ⟨b1, b2, b3⟩ := aI' hq.1.superset
      exact ⟨a1, a2, b2, ⟨y, hy, hq.2 ▸ hy⟩, b3, a3⟩
    · obtain ⟨a1, a2, a3⟩ := aI hq.1
      exact ⟨a1, a2, hq.2.2, ⟨y, hy, hq.2.1 hy⟩, fun ⟨z, z1, z2⟩ => h1' z ⟨z2, hq.2.1 z1⟩⟩
    · obtain ⟨a1, a2, a3⟩ := aI hq.1
      exact ⟨a1, a2, hq.2.2.2, hq.2.2.1, a3⟩
    · obtain ⟨a1, a2, a3⟩ := aI (Set.subset_union_left.trans hq)
      have hq : I ∪ B ⊆ I' := hq
      exact ⟨a1, a2, fun ⟨z, z1, z2⟩ => h1' z ⟨hq (.inr z1), z2⟩, ⟨y, hy, hq (.inr hy)⟩, a3⟩
  have f := facts r h
  have f' := facts r' h'
  revert f f'
  clear facts h h' 
  generalize (I ∩ I').Nonempty = a
  generalize (I ∩ E').Nonempty = b
  generalize (E ∩ I').Nonempty = c
  generalize (B ∩ B').Nonempty = d
  generalize (B ∩ I').Nonempty = e
  generalize (B' ∩ I).Nonempty = f
  cases r <;> cases r' <;> first | (intros; rfl) | (intro f f'; exfalso; revert f f'; simp only; tauto)

/-! ### linear geometries in areas -/

section

variable {context : Context K} {ε : K} {P : Finset (Point K)} {s f : State K} {m : Bool → K}
  {stopX : K} (S : Scene context ε P s f m stopX)

include S

/-- Crossings are reported exactly if segments of different operands have common inner points at which
one of them goes outside of the other operand. -/
theorem Scene.cross_iff : (∃ e ∈ (sweep false context stopX s).1, e.relation = .cross) ↔ Sharp s := by
  constructor
  · rintro ⟨e, he, hx⟩
    exact sweep_crossing_sharp S.exact stopX S.fresh S.clock S.clash S.ends e he hx
  · rintro ⟨u, hu, v, hv, huv, p, iu, iv, hl⟩
    refine sweep_sharp false S.exact stopX S.fresh S.clash S.ends hu hv huv iu iv ?_ hl
    have k1 := S.max _ p ⟨u, hu, rfl, iu.1⟩
    have k2 := S.max _ p ⟨v, hv, rfl, iv.1⟩
    rw [S.stop]
    revert k1 k2 huv
    cases (s.lefts u).fromTest <;> cases (s.lefts v).fromTest <;> intro huv k1 k2
    · exact absurd rfl huv
    · exact le_min k1 k2
    · exact le_min k2 k1
    · exact absurd rfl huv

/-- The answer of `process_linear_compound_queue`. -/
theorem Scene.linearCompound' {I E : Set (Point K)} (A : Area ε P (s.marks false) I E)
    (hne : (s.operand false).Nonempty) :
    ∃ r, runLinearCompound context s stopX = .ok r ∧
      LinearAnswer (Sharp s) (s.operand false ⊆ s.operand true) (s.operand true) I (s.operand false) E
        r := by
  have c := S.clock
  have hin := S.inside_iff (b := true) A
  have hout := S.outside_iff (b := true) A
  have hdis := S.disjoint_iff
  have hsub := S.subset_iff (b := false)
  obtain ⟨r, hr, c1, c2, c3, c4, c5, c6⟩ :=
    C28_linear_compound context (sweep false context stopX s).1 f
  have hrun : runLinearCompound context s stopX = .ok r := by
    rw [← hr]
    unfold runLinearCompound
    congr 1
    exact Prod.ext rfl S.ends
  have hmeet : (∃ e ∈ (sweep false context stopX s).1, e.relation ≠ .disjoint) ↔
      (s.operand true ∩ s.operand false).Nonempty := by
    rw [Set.nonempty_iff_ne_empty, ne_eq, ← hdis]
    push Not
    rfl
  have hleft : ((∃ e ∈ (sweep false context stopX s).1, e.fromTest = false ∧
      e.relation ≠ .overlap) ∨ NextFrom context f false) ↔ ¬ s.operand false ⊆ s.operand true := by
    rw [show s.operand true = s.operand (!false) from rfl, ← hsub, not_and_or, not_not]
    push Not
    rfl
  rw [hin, hout, hleft, S.cross_iff] at c1
  rw [hin, hout, S.cross_iff] at c2
  rw [hin, hout, hleft, hmeet] at c3 c4
  rw [hin, hout, hleft, hmeet, S.cross_iff] at c5 c6
  refine ⟨r, hrun, fun h => c1.mpr (.inl h), fun hn h1 _ h3 => c6.mpr ⟨hn, h3, .inr (not_not.mpr h1)⟩,
    fun hn hall => ?_⟩
  have cover : ∀ x ∈ s.operand true, x ∈ I ∨ x ∈ s.operand false ∨ x ∈ E := by
    intro x _
    by_cases h : x ∈ s.operand false
    · exact .inr (.inl h)
    · rcases A.cover x (s.segsPts_marks _ ▸ h) with h | h
      · exact .inl h
      · exact .inr (.inr h)
  have emp : ∀ {X : Set (Point K)}, ¬ (s.operand true ∩ X).Nonempty → ∀ x ∈ s.operand true, x ∉ X :=
    fun h x h1 h2 => h ⟨x, h1, h2⟩
  have hmem : r ∈ Props.linearCompound := by
    have hx : AnswersIn Props.linearCompound (processing.processLinearCompoundQueue context
        ((sweep false context stopX s).1, .ok f)) :=
      AnswersIn.ite (AnswersIn.ok (by simp [Props.linearCompound]))
        (AnswersIn.bind fun _ _ => AnswersIn.pure (linearCompound_result _))
    exact hx r hr
  simp only [Props.linearCompound, List.mem_cons, List.not_mem_nil, or_false] at hmem
  obtain ⟨y, hy⟩ := hne
  rcases hmem with rfl | rfl | rfl | rfl | rfl | rfl
  · obtain ⟨h1, h2, h3, h4⟩ := c4.mp rfl
    refine fun x hx => ?_
    rcases cover x hx with h | h | h
    · exact absurd h (emp h2 x hx)
    · exact absurd h (emp h4 x hx)
    · exact h
  · obtain ⟨-, h1, h2⟩ := c6.mp rfl
    by_cases hI : (s.operand true ∩ I).Nonempty
    · rcases h2 with h2 | h2
      · exact absurd hI h2.1
      · exact absurd ⟨not_not.mp h2, hI, h1⟩ hall
    · refine ⟨Set.not_nonempty_iff_eq_empty.mp hI, h1, ?_⟩
      rcases h2 with h2 | h2
      · exact h2.2
      · exact ⟨y, not_not.mp h2 hy, hy⟩
  · rcases c1.mp rfl with h | h
    · exact absurd h hn
    · exact ⟨h.1, h.2.1⟩
  · obtain ⟨-, h1, h2⟩ := c2.mp rfl
    refine fun x hx => ?_
    rcases cover x hx with h | h | h
    · exact absurd h (emp h2 x hx)
    · exact h
    · exact absurd h (emp h1 x hx)
  · obtain ⟨-, h1, h2, h3⟩ := c5.mp rfl
    refine ⟨Set.not_nonempty_iff_eq_empty.mp h1, h2, ?_⟩
    rcases h3 with h3 | h3
    · exact h3
    · exact ⟨y, not_not.mp h3 hy, hy⟩
  · obtain ⟨h1, h2, h3, h4⟩ := c3.mp rfl
    refine fun x hx => ?_
    rcases cover x hx with h | h | h
    · exact h
    · exact absurd h (emp h4 x hx)
    · exact absurd h (emp h1 x hx)

/-- The answer of `process_linear_compound_queue` if inner points of the edges of the area are on no
other edges. -/
theorem Scene.linearCompound {I E : Set (Point K)} (A : Area ε P (s.marks false) I E)
    (hp : Proper s false) (hne : (s.operand false).Nonempty) :
    ∃ r, runLinearCompound context s stopX = .ok r ∧
      (LinearCompoundRel (s.operand true) I (s.operand false) E r ∨
        (r = .touch ∧ s.operand false ⊆ s.operand true ∧ (s.operand true ∩ I).Nonempty ∧
          (s.operand true ∩ E).Nonempty)) := by
  obtain ⟨r, hr, h⟩ := S.linearCompound' A hne
  refine ⟨r, hr, ?_⟩
  rcases h.cases with h | ⟨h1, -, h⟩ | ⟨rfl, hX⟩
  · exact .inl h
  · exact .inr ⟨h1, h⟩
  · obtain ⟨u, hu, v, hv, bu, bv, hn, p, pu, pv⟩ := hX.crossing S.clock
    exact .inl (crossing_sides (b := false) S.clock S.clash A hp hu hv bu bv hn pu pv)

/-! ### areas in areas -/

/-- The answer of `process_compound_queue`. -/
theorem Scene.compound' {I E : Bool → Set (Point K)} (A : ∀ b, Area ε P (s.marks b) (I b) (E b))
    : ∃ r, runCompound context s stopX = .ok r ∧
      CompoundAnswer (Sharp s) (I true) (s.operand true) (E true) (I false) (s.operand false) (E false)
        r := by
  have c := S.clock
  have hends : sweep false context stopX s = ((sweep false context stopX s).1, .ok f) :=
    Prod.ext rfl S.ends
  have bs := fun {b} {z} => boundary_sides (b := b) (z := z) c S.clash A
  by_cases hx : ∃ e ∈ (sweep false context stopX s).1, e.relation = .cross
  · refine ⟨.overlap, ?_, ?_⟩
    · unfold runCompound
      rw [hends]
      exact (C28_compound_cross context _ _ hx).1
    · exact ⟨fun _ => rfl, fun hn => absurd (S.cross_iff.mp hx) hn⟩
  · have hns : ¬ Sharp s := fun h => hx (S.cross_iff.mpr h)
    push Not at hx
    obtain ⟨r, hr, f1, f2, f3, f4, f5, f6, f7, f8, f9, f10⟩ := C28_compound context _ f hx
    refine ⟨r, by unfold runCompound; rw [hends]; exact hr, fun h => absurd h hns, fun _ => ?_⟩
    have hmeet : (∃ e ∈ (sweep false context stopX s).1, e.relation ≠ .disjoint) ↔
        (s.operand true ∩ s.operand false).Nonempty := by
      rw [Set.nonempty_iff_ne_empty, ne_eq, ← S.disjoint_iff]
      push Not
      rfl
    beta_reduce at f1 f2 f3 f4 f5 f6 f7 f8 f9 f10
    rw [hmeet, S.part_iff A] at f1
    rw [hmeet, S.part_iff A, S.part_iff A] at f2 f4
    rw [hmeet, S.part_iff A, S.part_iff A, S.common_iff A] at f3 f9
    rw [hmeet, S.part_iff A, S.part_iff A, S.inside_iff (A _)] at f5 f6 f7 f8
    rw [S.part_iff A, S.part_iff A, S.common_iff A] at f10
    simp only [Bool.not_true, Bool.not_false] at f1 f2 f3 f4 f5 f6 f7 f8 f9 f10
    have emp : ∀ {X Y : Set (Point K)}, ¬ (X ∩ Y).Nonempty → ∀ x ∈ X, x ∉ Y :=
      fun h x h1 h2 => h ⟨x, h1, h2⟩
    have emp' : ∀ {X Y : Set (Point K)}, X ∩ Y = ∅ → ∀ x ∈ X, x ∉ Y :=
      fun h x h1 h2 => (Set.eq_empty_iff_forall_notMem.mp h) x ⟨h1, h2⟩
    have cover : ∀ b x, x ∈ I b ∨ x ∈ s.operand b ∨ x ∈ E b := by
      intro b x
      by_cases h : x ∈ s.operand b
      · exact .inr (.inl h)
      · rcases (A b).cover x (s.segsPts_marks _ ▸ h) with h | h
        · exact .inl h
        · exact .inr (.inr h)
    -- one of the interiors is a part of the other one
    have sub : ∀ b, (I b ∪ s.operand b) ∩ E (!b) = ∅ → I b ⊆ I !b := by
      intro b h x hx
      rcases cover (!b) x with h' | h' | h'
      · exact h'
      · obtain ⟨-, z, z1, z2⟩ := (bs (b := !b) h').1 (by rw [Bool.not_not]; exact hx)
        rw [Bool.not_not] at z2
        exact absurd z1 (emp' h z (.inl z2))
      · exact absurd h' (emp' h x (.inl hx))
    have subB : ∀ b, (I b ∪ s.operand b) ∩ E (!b) = ∅ → s.operand b ⊆ I (!b) ∪ s.operand (!b) := by
      intro b h x hx
      rcases cover (!b) x with h' | h' | h'
      · exact .inl h'
      · exact .inr h'
      · exact absurd h' (emp' h x (.inr hx))
    have noPart : ∀ b, ¬ (I b ∪ s.operand b) ∩ E (!b) = ∅ → (I b ∩ E !b).Nonempty := by
      intro b h
      obtain ⟨x, hx | hx, hE⟩ := Set.nonempty_iff_ne_empty.mpr h
      · exact ⟨x, hx, hE⟩
      · exact (bs hx).2 hE
    -- apart from common points of the boundaries
    have only : ¬ (I true ∩ I false).Nonempty → ∀ x ∈ (I true ∪ s.operand true) ∩
        (I false ∪ s.operand false), x ∈ s.operand true ∩ s.operand false := by
      rintro h x ⟨h1 | h1, h2 | h2⟩
      · exact absurd h2 (emp h x h1)
      · exact absurd (Set.inter_comm _ _ ▸ ((bs (b := false) h2).1 h1).1) h
      · exact absurd ((bs (b := true) h1).1 h2).1 h
      · exact ⟨h1, h2⟩
    clear hr hx bs hends
    cases r
    · obtain ⟨h1, -, -, h2⟩ := f3.mp rfl
      exact Set.eq_empty_iff_forall_notMem.mpr fun x hx => h1 ⟨x, only h2 x hx⟩
    · obtain ⟨h1, -, -, h2⟩ := f9.mp rfl
      exact ⟨h1, only h2⟩
    · exfalso
      by_cases a : (s.operand true ∩ s.operand false).Nonempty <;>
      by_cases b : (I true ∪ s.operand true) ∩ E false = ∅ <;>
      by_cases d : (I false ∪ s.operand false) ∩ E true = ∅ <;>
      by_cases e : (I true ∩ I false).Nonempty <;>
      by_cases g : (s.operand true ∩ I false).Nonempty <;>
      by_cases h : (s.operand false ∩ I true).Nonempty <;>
      simp [a, b, d, e, g, h] at f1 f2 f3 f4 f5 f6 f7 f8 f9 f10
    · obtain ⟨h1, h2, h3⟩ := f10.mp rfl
      exact ⟨h3, noPart true h1, Set.inter_comm _ _ ▸ noPart false h2⟩
    · obtain ⟨h1, -, h2⟩ := f2.mp rfl
      rintro x (hx | hx)
      · exact sub false h2 hx
      · exact (subB false h2 hx).resolve_right fun h => h1 ⟨x, h, hx⟩
    · obtain ⟨h1, h2, h3, h4⟩ := f8.mp rfl
      exact ⟨sub false h3, subB false h3, h4, h1⟩
    · obtain ⟨h1, h2, h3, h4⟩ := f7.mp rfl
      exact ⟨sub false h3, fun x hx => (subB false h3 hx).resolve_left (emp h4 x hx), noPart true h2⟩
    · obtain ⟨h1, h2, h3⟩ := f4.mp rfl
      have e : I true = I false := Set.Subset.antisymm (sub true h2) (sub false h3)
      refine ⟨e, Set.Subset.antisymm (fun x hx => (subB true h2 hx).resolve_left fun h => ?_)
        (fun x hx => (subB false h3 hx).resolve_left fun h => ?_)⟩
      · rw [← s.segsPts_marks] at hx
        exact (A true).interior x (e.symm ▸ h) hx
      · rw [← s.segsPts_marks] at hx
        exact (A false).interior x (e ▸ h) hx
    · obtain ⟨h1, h2, h3, h4⟩ := f5.mp rfl
      exact ⟨sub true h2, fun x hx => (subB true h2 hx).resolve_left (emp h4 x hx),
        Set.inter_comm _ _ ▸ noPart false h3⟩
    · obtain ⟨h1, h2, h3, h4⟩ := f6.mp rfl
      exact ⟨sub true h2, subB true h2, h4, h1⟩
    · obtain ⟨h1, h2⟩ := f1.mp rfl
      rintro x (hx | hx)
      · exact sub true h2 hx
      · exact (subB true h2 hx).resolve_right fun h => h1 ⟨x, hx, h⟩

/-- The answer of `process_compound_queue` if inner points of the edges of one of the areas are on no
other edges of it. -/
theorem Scene.compound {I E : Bool → Set (Point K)} (A : ∀ b, Area ε P (s.marks b) (I b) (E b))
    {b : Bool} (hp : Proper s b) :
    ∃ r, runCompound context s stopX = .ok r ∧
      CompoundRel (I true) (s.operand true) (E true) (I false) (s.operand false) (E false) r := by
  have bs := fun {b} {z} => boundary_sides (b := b) (z := z) S.clock S.clash A
  have key : Crossing ε s → CompoundRel (I true) (s.operand true) (E true) (I false) (s.operand false)
      (E false) .overlap := by
    rintro ⟨u, hu, v, hv, bu, bv, hn, p, pu, pv⟩
    cases b
    · obtain ⟨⟨x, x1, x2⟩, ⟨y, y1, y2⟩⟩ :=
        crossing_sides (b := false) S.clock S.clash (A false) hp hu hv bu bv hn pu pv
      obtain ⟨k1, k2⟩ := (bs (b := true) x1).1 x2
      exact ⟨k1, (bs (b := true) y1).2 y2, k2⟩
    · obtain ⟨⟨x, x1, x2⟩, ⟨y, y1, y2⟩⟩ :=
        crossing_sides (b := true) S.clock S.clash (A true) hp hv hu bv bu (fun h => hn h.symm) pv pu
      obtain ⟨k1, k2⟩ := (bs (b := false) x1).1 x2
      have k3 := (bs (b := false) y1).2 y2
      exact ⟨Set.inter_comm _ _ ▸ k1, Set.inter_comm _ _ ▸ k2, Set.inter_comm _ _ ▸ k3⟩
  obtain ⟨r, hr, h⟩ := S.compound' A
  rcases h.cases with h | ⟨rfl, hX⟩
  · exact ⟨r, hr, h⟩
  · exact ⟨_, hr, key (hX.crossing S.clock)⟩

end

end Orient
