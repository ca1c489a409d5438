import Verif.Lemmas.Sweep.CrossSides
import Mathlib.Data.Finset.Max

/-! What the flags of `process_compound_queue` and `process_linear_compound_queue` say about areas. -/

set_option linter.unusedSectionVars false

namespace Orient

variable {K : Type} [Field K] [LinearOrder K] [IsStrictOrderedRing K]

open Segment State eventsQueue

section

variable {ε : K} {P : Finset (Point K)} {s : State K} {t : K} {b : Bool} {I E : Bool → Set (Point K)}

/-- Next to a point of a segment which is not on the other operand there is one at a time at which
nothing happens. -/
theorem exists_generic_on (c : Clock ε P s) (A : Area ε P (s.marks (!b)) (I !b) (E !b)) {z : Point K}
    (hz : z ∈ s.operand b) (hn : z ∉ s.operand (!b)) : ∃ i < s.nextLeft, ∃ t, Generic ε P t ∧
      ActiveAt ε s b t i ∧ ((s.seg i).pointAt ε t ∈ I !b ↔ z ∈ I !b) ∧
      ((s.seg i).pointAt ε t ∈ E !b ↔ z ∈ E !b) := by
  obtain ⟨i, hi, hb, hm⟩ := hz
  obtain ⟨a, ha, hne⟩ : ∃ a ∈ (s.seg i).pts, z.time ε ≠ a.time ε := by
    by_cases e : z.time ε = (s.seg i).start.time ε
    · exact ⟨_, Segment.finish_mem _, fun e' => (c.times hi).ne (e.symm.trans e')⟩
    · exact ⟨_, Segment.start_mem _, e⟩
  rw [← s.segsPts_marks] at hn
  obtain ⟨e, he, hstep⟩ := A.step (fun e => hne (congrArg (fun p => p.time ε) e)) hn
  obtain ⟨u, u0, u1, hg⟩ := exists_generic_step P hne (lt_min he one_pos)
  obtain ⟨-, l1, l2⟩ := hstep u u0.le (u1.trans (min_le_left _ _))
  have hmem := lerp_mem_pts hm ha u0.le (u1.trans (min_le_right _ _))
  obtain ⟨k1, k2, k3⟩ := (mem_pts_iff_height (c.times hi) _).mp hmem
  have ez : (s.seg i).pointAt ε ((lerp z a u).time ε) = lerp z a u :=
    Point.ext_time (pointAt_time _ _) k3.symm
  refine ⟨i, hi, _, hg, ⟨hb, lt_of_le_of_ne k1 (hg _ (c.points.start i hi)),
    lt_of_le_of_ne k2 (hg _ (c.points.finish i hi)).symm⟩, ?_, ?_⟩
  · rw [ez]; exact l1
  · rw [ez]; exact l2

/-- Both sides of a segment which is not on the other operand are at the same side of that. -/
theorem edge_sides (c : Clock ε P s) (hcl : ¬ Clash s) (A : ∀ b, Area ε P (s.marks b) (I b) (E b))
    (ht : Generic ε P t) {i : Nat} (hi : i < s.nextLeft) (ai : ActiveAt ε s b t i) :
    ((s.seg i).pointAt ε t ∈ I (!b) → (I b ∩ I !b).Nonempty ∧ (E b ∩ I !b).Nonempty) ∧
    ((s.seg i).pointAt ε t ∈ E (!b) → (I b ∩ E !b).Nonempty) := by
  obtain ⟨δ, N⟩ := exists_nearby c ht ((s.seg i).height ε t)
  obtain ⟨h1, h2, h3, h4⟩ := N.edge c hcl (A b) ht hi ai
  have hcol : (s.seg i).pointAt ε t = col ε t ((s.seg i).height ε t) := rfl
  have key : (s.seg i).pointAt ε t ∉ s.operand (!b) →
      upto ε s (!b) t ((s.seg i).height ε t) = below ε s (!b) t ((s.seg i).height ε t) := by
    intro hn
    refine upto_eq_below fun j hj aj e => hn ?_
    rw [hcol]
    exact (col_mem_operand c ht).mpr ⟨j, hj, aj, e⟩
  constructor
  · intro hz
    have hn : (s.seg i).pointAt ε t ∉ s.operand (!b) := s.segsPts_marks _ ▸ (A _).interior _ hz
    have hodd := ((A (!b)).at_col ht (hcol ▸ hn)).1.mp hz
    have k1 := (N.above_iff (A !b) ht).1.mpr (by rw [key hn]; exact hodd)
    have k2 := (N.under_iff (A !b) ht).1.mpr hodd
    cases hf : (s.lefts i).interiorToLeft
    · exact ⟨⟨_, h3.mpr hf, k2⟩, ⟨_, h2.mpr hf, k1⟩⟩
    · exact ⟨⟨_, h1.mpr hf, k1⟩, ⟨_, h4.mpr hf, k2⟩⟩
  · intro hz
    have hn : (s.seg i).pointAt ε t ∉ s.operand (!b) := s.segsPts_marks _ ▸ (A _).exterior _ hz
    have heven := ((A (!b)).at_col ht (hcol ▸ hn)).2.mp hz
    have k1 := (N.above_iff (A !b) ht).2.mpr (by rw [key hn]; exact heven)
    have k2 := (N.under_iff (A !b) ht).2.mpr heven
    cases hf : (s.lefts i).interiorToLeft
    · exact ⟨_, h3.mpr hf, k2⟩
    · exact ⟨_, h1.mpr hf, k1⟩

/-- The sides of a common segment. -/
theorem common_sides (c : Clock ε P s) (hcl : ¬ Clash s) (A : ∀ b, Area ε P (s.marks b) (I b) (E b))
    (ht : Generic ε P t) {i j : Nat} (hi : i < s.nextLeft) (hj : j < s.nextLeft)
    (ai : ActiveAt ε s b t i) (aj : ActiveAt ε s (!b) t j)
    (he : (s.seg j).height ε t = (s.seg i).height ε t) :
    ((s.lefts j).interiorToLeft = (s.lefts i).interiorToLeft → (I b ∩ I !b).Nonempty) ∧
    ((s.lefts j).interiorToLeft ≠ (s.lefts i).interiorToLeft → (I b ∩ E !b).Nonempty) := by
  obtain ⟨δ, N⟩ := exists_nearby c ht ((s.seg i).height ε t)
  obtain ⟨h1, -, h3, -⟩ := N.edge c hcl (A b) ht hi ai
  have N' : Near ε s t ((s.seg j).height ε t) δ := he.symm ▸ N
  obtain ⟨k1, k2, k3, k4⟩ := N'.edge c hcl (A !b) ht hj aj
  rw [he] at k1 k2 k3 k4
  cases hf : (s.lefts i).interiorToLeft <;> cases hg : (s.lefts j).interiorToLeft
  · exact ⟨fun _ => ⟨_, h3.mpr hf, k3.mpr hg⟩, fun h => absurd rfl h⟩
  · exact ⟨(nomatch ·), fun _ => ⟨_, h3.mpr hf, k4.mpr hg⟩⟩
  · exact ⟨(nomatch ·), fun _ => ⟨_, h1.mpr hf, k2.mpr hg⟩⟩
  · exact ⟨fun _ => ⟨_, h1.mpr hf, k1.mpr hg⟩, fun h => absurd rfl h⟩

/-- Points of an operand have points of the interior next to them. -/
theorem boundary_sides (c : Clock ε P s) (hcl : ¬ Clash s)
    (A : ∀ b, Area ε P (s.marks b) (I b) (E b)) {z : Point K} (hz : z ∈ s.operand b) :
    (z ∈ I (!b) → (I b ∩ I !b).Nonempty ∧ (E b ∩ I !b).Nonempty) ∧
    (z ∈ E (!b) → (I b ∩ E !b).Nonempty) := by
  constructor
  · intro h
    obtain ⟨i, hi, t, ht, ai, h1, -⟩ := exists_generic_on (I := I) (E := E) c (A !b) hz
      (s.segsPts_marks _ ▸ (A _).interior _ h)
    exact (edge_sides c hcl A ht hi ai).1 (h1.mpr h)
  · intro h
    obtain ⟨i, hi, t, ht, ai, -, h1⟩ := exists_generic_on (I := I) (E := E) c (A !b) hz
      (s.segsPts_marks _ ▸ (A _).exterior _ h)
    exact (edge_sides c hcl A ht hi ai).2 (h1.mpr h)

/-- A point which is on none of the operands has one at a time at which nothing happens next to it. -/
theorem exists_generic_near (A : ∀ b, Area ε P (s.marks b) (I b) (E b)) {z : Point K}
    (hn : ∀ b, z ∉ s.operand b) : ∃ t h, Generic ε P t ∧ (∀ b, col ε t h ∉ s.operand b) ∧
      ∀ b, (col ε t h ∈ I b ↔ z ∈ I b) ∧ (col ε t h ∈ E b ↔ z ∈ E b) := by
  set a : Point K := ⟨z.x + 1, z.y⟩ with ha
  have hne : z.time ε ≠ a.time ε := by
    unfold Point.time; rw [ha]; simp
  have hne' : z ≠ a := fun e => hne (congrArg (fun p => p.time ε) e)
  have hn' : ∀ b, z ∉ segsPts ((s.marks b).map Prod.fst) := fun b => s.segsPts_marks b ▸ hn b
  obtain ⟨e₁, he₁, h₁⟩ := (A true).step hne' (hn' true)
  obtain ⟨e₂, he₂, h₂⟩ := (A false).step hne' (hn' false)
  obtain ⟨u, u0, u1, hg⟩ := exists_generic_step P hne (lt_min he₁ he₂)
  have k₁ := h₁ u u0.le (u1.trans (min_le_left _ _))
  have k₂ := h₂ u u0.le (u1.trans (min_le_right _ _))
  refine ⟨_, (lerp z a u).y, hg, fun b => ?_, fun b => ?_⟩
  · rw [col_self, ← s.segsPts_marks]
    cases b
    · exact k₂.1
    · exact k₁.1
  · rw [col_self]
    cases b
    · exact k₂.2
    · exact k₁.2

/-- The first segment below a point. -/
theorem descend {h : K} {b : Bool} (hodd : Odd (below ε s b t h).card) :
    ∃ b' i, i < s.nextLeft ∧ ActiveAt ε s b' t i ∧ (s.seg i).height ε t < h ∧
      ∀ b, below ε s b t h = upto ε s b t ((s.seg i).height ε t) := by
  have hne : (below ε s true t h ∪ below ε s false t h).Nonempty := by
    obtain ⟨i, hi⟩ : (below ε s b t h).Nonempty := by
      rw [Finset.nonempty_iff_ne_empty]
      intro e; rw [e] at hodd; simp at hodd
    refine ⟨i, Finset.mem_union.mpr ?_⟩
    cases b
    · exact .inr hi
    · exact .inl hi
  obtain ⟨i, hi, hmax⟩ := Finset.exists_max_image _ (fun i => (s.seg i).height ε t) hne
  obtain ⟨b', hb'⟩ : ∃ b', i ∈ below ε s b' t h := by
    rcases Finset.mem_union.mp hi with hi | hi
    · exact ⟨_, hi⟩
    · exact ⟨_, hi⟩
  obtain ⟨k1, k2, k3⟩ := mem_below.mp hb'
  refine ⟨b', i, k1, k2, k3, fun b => ?_⟩
  ext j
  rw [mem_below, mem_upto]
  constructor
  · intro hj
    refine ⟨hj.1, hj.2.1, hmax j (Finset.mem_union.mpr ?_)⟩
    cases b
    · exact .inr (mem_below.mpr hj)
    · exact .inl (mem_below.mpr hj)
  · rintro ⟨h1, h2, h3⟩; exact ⟨h1, h2, h3.trans_lt k3⟩

end

/-! ### the flags -/

section

variable {context : Context K} {ε : K} {P : Finset (Point K)} {s f : State K} {m : Bool → K}
  {stopX : K} (S : Scene context ε P s f m stopX) {I E : Bool → Set (Point K)} {b : Bool}

include S

/-- A point of one of the interiors is above a described segment or above one beyond the last
abscissa. -/
theorem Scene.descend (A : ∀ b, Area ε P (s.marks b) (I b) (E b)) {z : Point K}
    (hz : z ∈ I b) (hn : z ∈ I (!b) ∨ z ∈ E !b) :
    ∃ t, Generic ε P t ∧ ∃ b' i δ, i < s.nextLeft ∧ ActiveAt ε s b' t i ∧
      Near ε s t ((s.seg i).height ε t) δ ∧
      (∀ b, (col ε t ((s.seg i).height ε t + δ) ∈ I b ↔ z ∈ I b) ∧
        (col ε t ((s.seg i).height ε t + δ) ∈ E b ↔ z ∈ E b)) := by
  have hn : ∀ b, z ∉ s.operand b := by
    intro b'
    rw [← s.segsPts_marks]
    by_cases e : b' = b
    · subst e; exact (A _).interior z hz
    · have : b' = !b := by cases b <;> cases b' <;> simp_all
      subst this
      rcases hn with hn | hn
      · exact (A _).interior z hn
      · exact (A _).exterior z hn
  obtain ⟨t, h, ht, hop, hiff⟩ := exists_generic_near A hn
  have hodd := ((A b).at_col ht (hop b)).1.mp ((hiff b).1.mpr hz)
  obtain ⟨b', i, hi, ai, -, hu⟩ := Orient.descend hodd
  obtain ⟨δ, N⟩ := exists_nearby S.clock ht ((s.seg i).height ε t)
  refine ⟨t, ht, b', i, δ, hi, ai, N, fun b => ?_⟩
  have h1 := (A b).at_col ht (hop b)
  have h2 := N.above_iff (A b) ht
  rw [hu b] at h1
  exact ⟨(h2.1.trans h1.1.symm).trans (hiff b).1, (h2.2.trans h1.2.symm).trans (hiff b).2⟩

/-- Common points of the interiors are reported. -/
theorem Scene.common_iff (A : ∀ b, Area ε P (s.marks b) (I b) (E b)) :
    (∃ em ∈ (sweep false context stopX s).1, em.isCommonRegionBoundary = true ∨ em.inside = true) ↔
      (I true ∩ I false).Nonempty := by
  have c := S.clock
  have swap : ∀ b, (I b ∩ I !b).Nonempty → (I true ∩ I false).Nonempty := by
    rintro b ⟨x, h1, h2⟩
    cases b
    · exact ⟨x, h2, h1⟩
    · exact ⟨x, h1, h2⟩
  constructor
  · rintro ⟨em, hem, h⟩
    obtain ⟨i, hi, t, ht, ai, D⟩ := S.judged.sound c hem
    refine swap em.fromTest ?_
    rcases h with h | h
    · have hk : em.overlapKind = .sameOrientation := by
        simpa [Emitted.isCommonRegionBoundary] using h
      have hne : em.overlapKind ≠ .none := by rw [hk]; decide
      rw [ne_eq, D.apart] at hne
      push Not at hne
      obtain ⟨j, hj, aj, e⟩ := hne
      refine (common_sides c S.clash A ht hi hj ai aj e).1 ?_
      have := D.kind j hj aj e
      rw [hk] at this
      unfold kindOf at this
      split at this
      · assumption
      · cases this
    · exact ((edge_sides c S.clash A ht hi ai).1 ((D.located c (A _) ht).1.mp h)).1
  · rintro ⟨z, h1, h2⟩
    obtain ⟨t, ht, b', i, δ, hi, ai, N, hiff⟩ := S.descend A (b := true) h1 (.inl h2)
    have hboth : ∀ b, col ε t ((s.seg i).height ε t + δ) ∈ I b := by
      intro b
      cases b
      · exact (hiff false).1.mpr h2
      · exact (hiff true).1.mpr h1
    have hfi := (N.edge c S.clash (A b') ht hi ai).1.mp (hboth b')
    by_cases hon : (s.seg i).pointAt ε t ∈ s.operand (!b')
    · have hx : ((s.seg i).pointAt ε t).x ≤ stopX := by
        by_contra hx
        exact lt_irrefl _ (S.past ⟨i, hi, ai.1, pointAt_mem (c.times hi) ai.2.1.le ai.2.2.le⟩
          (not_le.mp hx) _ hon)
      obtain ⟨em, hem, D⟩ := S.judged.complete_at c hi ht ai hx
      obtain ⟨j, hj, aj, e⟩ := (col_mem_operand c ht).mp hon
      have N' : Near ε s t ((s.seg j).height ε t) δ := e.symm ▸ N
      have hfj := (N'.edge c S.clash (A !b') ht hj aj).1.mp (by rw [e]; exact hboth _)
      refine ⟨em, hem, .inl ?_⟩
      unfold Emitted.isCommonRegionBoundary
      rw [D.kind j hj aj e]
      unfold kindOf
      rw [hfi, hfj]
      simp
    · have hin : (s.seg i).pointAt ε t ∈ I !b' := by
        rw [show (s.seg i).pointAt ε t = col ε t ((s.seg i).height ε t) from rfl] at hon ⊢
        rw [((A !b').at_col ht hon).1, ← upto_eq_below fun j hj aj e => hon
          ((col_mem_operand c ht).mpr ⟨j, hj, aj, e⟩), ← (N.above_iff (A !b') ht).1]
        exact hboth _
      have hx : ((s.seg i).pointAt ε t).x ≤ stopX := by
        by_contra hx
        exact (A _).apart _ hin ((A _).beyond c (S.past
          ⟨i, hi, ai.1, pointAt_mem (c.times hi) ai.2.1.le ai.2.2.le⟩ (not_le.mp hx)))
      obtain ⟨em, hem, D⟩ := S.judged.complete_at c hi ht ai hx
      exact ⟨em, hem, .inr ((D.located c (A _) ht).1.mpr hin)⟩

/-- Points of one of the areas which are not in the other one are reported. -/
theorem Scene.part_iff (A : ∀ b, Area ε P (s.marks b) (I b) (E b)) :
    ((∀ em ∈ (sweep false context stopX s).1, em.fromTest = b →
        em.outside = false ∧ em.isCommonPolylineComponent = false) ∧
      (∀ em ∈ (sweep false context stopX s).1, em.fromTest = (!b) → em.inside = false) ∧
      ¬ Props.NextFrom context f b) ↔ (I b ∪ s.operand b) ∩ E (!b) = ∅ := by
  have c := S.clock
  rw [Set.eq_empty_iff_forall_notMem]
  constructor
  · rintro ⟨h1, h2, h3⟩ x ⟨hx, hxE⟩
    obtain ⟨z, hz, hzE⟩ : (I b ∩ E !b).Nonempty := by
      rcases hx with hx | hx
      · exact ⟨x, hx, hxE⟩
      · exact (boundary_sides c S.clash A hx).2 hxE
    obtain ⟨t, ht, b', i, δ, hi, ai, N, hiff⟩ := S.descend A (b := b) hz (.inr hzE)
    have hI := (hiff b).1.mpr hz
    have hE := (hiff !b).2.mpr hzE
    have hmem : (s.seg i).pointAt ε t ∈ s.operand b' :=
      ⟨i, hi, ai.1, pointAt_mem (c.times hi) ai.2.1.le ai.2.2.le⟩
    have hcol : (s.seg i).pointAt ε t = col ε t ((s.seg i).height ε t) := rfl
    -- the segment is from `b` or only from the other operand
    obtain ⟨i', hi', e', ai'⟩ | hnot : (∃ i' < s.nextLeft, (s.seg i').height ε t = (s.seg i).height ε t ∧
        ActiveAt ε s b t i') ∨ (s.seg i).pointAt ε t ∉ s.operand b := by
      by_cases h : (s.seg i).pointAt ε t ∈ s.operand b
      · obtain ⟨j, hj, aj, e⟩ := (col_mem_operand c ht).mp (hcol ▸ h)
        exact .inl ⟨j, hj, e, aj⟩
      · exact .inr h
    · have N' : Near ε s t ((s.seg i').height ε t) δ := e'.symm ▸ N
      have hp : (s.seg i').pointAt ε t = (s.seg i).pointAt ε t := by unfold pointAt; rw [e']
      have hx : ((s.seg i').pointAt ε t).x ≤ stopX := by
        by_contra hx
        exact h3 (S.next_iff.mpr ⟨_, ⟨i', hi', ai'.1, pointAt_mem (c.times hi') ai'.2.1.le
          ai'.2.2.le⟩, not_le.mp hx⟩)
      obtain ⟨em, hem, D⟩ := S.judged.complete_at c hi' ht ai' hx
      obtain ⟨g1, g2⟩ := h1 em hem D.fromTest
      by_cases hon : (s.seg i').pointAt ε t ∈ s.operand (!b)
      · obtain ⟨j, hj, aj, e⟩ := (col_mem_operand c ht).mp hon
        have hfi := (N'.edge c S.clash (A b) ht hi' ai').1.mp (by rw [e']; exact hI)
        have N'' : Near ε s t ((s.seg j).height ε t) δ := (e.trans e').symm ▸ N
        have hfj := (N''.edge c S.clash (A !b) ht hj aj).2.1.mp (by rw [e, e']; exact hE)
        have := D.kind j hj aj e
        unfold kindOf at this
        rw [hfi, hfj, if_neg (by decide)] at this
        simp [Emitted.isCommonPolylineComponent, this] at g2
      · have hout : (s.seg i').pointAt ε t ∈ E !b := by
          rw [hp, hcol] at hon ⊢
          rw [((A !b).at_col ht hon).2, ← upto_eq_below fun j hj aj e => hon
            ((col_mem_operand c ht).mpr ⟨j, hj, aj, e⟩), ← (N.above_iff (A !b) ht).2]
          exact hE
        rw [(D.located c (A _) ht).2.1.mpr hout] at g1
        cases g1
    · have hb' : b' = !b := by
        by_contra hne
        have : b' = b := by cases b <;> cases b' <;> simp_all
        subst this
        exact hnot hmem
      subst hb'
      have hin : (s.seg i).pointAt ε t ∈ I b := by
        rw [hcol] at hnot ⊢
        rw [((A b).at_col ht hnot).1, ← upto_eq_below fun j hj aj e => hnot
          ((col_mem_operand c ht).mpr ⟨j, hj, aj, e⟩), ← (N.above_iff (A b) ht).1]
        exact hI
      have hx : ((s.seg i).pointAt ε t).x ≤ stopX := by
        by_contra hx
        refine (A b).apart _ hin ((A b).beyond c ?_)
        have := S.past hmem (not_le.mp hx)
        rwa [Bool.not_not] at this
      obtain ⟨em, hem, D⟩ := S.judged.complete_at c hi ht ai hx
      have := h2 em hem D.fromTest
      have hin' := (D.located (I := I b) (E := E b) c (by rw [Bool.not_not]; exact A b) ht).1.mpr hin
      rw [hin'] at this
      cases this
  · intro h
    refine ⟨fun em hem hb => ?_, fun em hem hb => ?_, fun hn => ?_⟩
    · obtain ⟨i, hi, t, ht, ai, D⟩ := S.judged.sound c hem
      rw [hb] at ai D
      have hmem : (s.seg i).pointAt ε t ∈ s.operand b :=
        ⟨i, hi, ai.1, pointAt_mem (c.times hi) ai.2.1.le ai.2.2.le⟩
      constructor
      · by_contra hne
        have := (D.located c (A _) ht).2.1.mp (by simpa using hne)
        exact h _ ⟨.inr hmem, this⟩
      · by_contra hne
        have hk : em.overlapKind = .differentOrientation := by
          simpa [Emitted.isCommonPolylineComponent] using hne
        have hne : em.overlapKind ≠ .none := by rw [hk]; decide
        rw [ne_eq, D.apart] at hne
        push Not at hne
        obtain ⟨j, hj, aj, e⟩ := hne
        obtain ⟨x, x1, x2⟩ := (common_sides c S.clash A ht hi hj ai aj e).2 fun hf => by
          have := D.kind j hj aj e
          rw [hk] at this
          unfold kindOf at this
          rw [if_pos hf] at this
          cases this
        exact h x ⟨.inl x1, x2⟩
    · obtain ⟨i, hi, t, ht, ai, D⟩ := S.judged.sound c hem
      rw [hb] at ai D
      by_contra hne
      have hin := (D.located (I := I b) (E := E b) c (by rw [Bool.not_not]; exact A b) ht).1.mp
        (by simpa using hne)
      obtain ⟨-, x, x1, x2⟩ := (edge_sides c S.clash A ht hi ai).1 (by rw [Bool.not_not]; exact hin)
      rw [Bool.not_not] at x2
      exact h x ⟨.inl x2, x1⟩
    · obtain ⟨z, hz, hx⟩ := S.next_iff.mp hn
      exact h z ⟨.inr hz, (A _).beyond c (S.past hz hx)⟩

end

end Orient
