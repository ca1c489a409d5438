import Verif.Lemmas.Germ
import Verif.Model.Multisegment
import Mathlib.Data.Finset.Max

/-! The part of a segment covered by the pieces seen so far, as recorded by the loop of
`multisegment.relateSegment`: everything up to `start`, everything from `finish` on, and separate
components between them. -/

set_option linter.unusedSectionVars false

namespace Orient

variable {K : Type} [Field K] [LinearOrder K] [IsStrictOrderedRing K]

/-- The recorded part. -/
def Recorded (start finish : Point K) (comps : List (Point K × Point K)) (x : Point K) : Prop :=
  x ≤ start ∨ finish ≤ x ∨ ∃ c ∈ comps, c.1 ≤ x ∧ x ≤ c.2

/-- What is recorded is what the pieces cover. -/
structure Cover (s : Segment K) (pre : List (Segment K)) (start finish : Point K)
    (comps : List (Point K × Point K)) : Prop where
  start_mem : start ∈ s.pts
  finish_mem : finish ∈ s.pts
  le : start ≤ finish
  comp : ∀ c ∈ comps, c.1 ∈ s.pts ∧ c.2 ∈ s.pts ∧ start ≤ c.1 ∧ c.1 < c.2 ∧ c.2 ≤ finish
  disj : comps.Pairwise (fun c d => c.2 ≤ d.1 ∨ d.2 ≤ c.1)
  cov_of : ∀ x ∈ s.pts, ∀ t ∈ pre, (s.pts ∩ t.pts).Nontrivial → x ∈ t.pts →
    Recorded start finish comps x
  of_cov : ∀ x ∈ s.pts, Recorded start finish comps x → x ∈ segsPts pre ∨ x = s.lo ∨ x = s.hi

namespace Cover

variable {s t : Segment K} {pre : List (Segment K)} {start finish : Point K}
  {comps : List (Point K × Point K)}

theorem init (s : Segment K) : Cover s [] s.lo s.hi [] where
  start_mem := s.lo_mem
  finish_mem := s.hi_mem
  le := Segment.lo_le s.hi_mem
  comp := by simp
  disj := by simp
  cov_of := by simp
  of_cov := by
    intro x hx h
    right
    rcases h with h | h | ⟨c, hc, -⟩
    · exact .inl (le_antisymm h (Segment.lo_le hx))
    · exact .inr (le_antisymm (Segment.le_hi hx) h)
    · simp at hc

theorem no_common (h : Cover s pre start finish comps) {p q : Point K} (hp : p ∈ s.pts)
    (hq : q ∈ s.pts) (hpq : p < q) (hpt : p ∈ t.pts) (hqt : q ∈ t.pts)
    (hdis : ∀ t' ∈ pre, (t'.pts ∩ t.pts).Subsingleton)
    (hr : ∀ x, p ≤ x → x ≤ q → Recorded start finish comps x) : False := by
  obtain ⟨t', ht', b, hb, hb', hm, hm'⟩ := exists_germ_cofinite hpq.ne (l := pre)
    (F := [s.lo, s.hi]) (by
      intro x hx
      rw [Segment.mem_sub_iff hp hq hpq] at hx
      have := h.of_cov x hx.1 (hr x hx.2.1 hx.2.2)
      simpa using this)
  exact hb (hdis t' ht' ⟨hm', Segment.pts_subset hpt hqt hb'⟩ ⟨hm, hpt⟩)

/-- A new piece lies in the gaps. -/
theorem gap (h : Cover s pre start finish comps) {a b : Point K} (ha : a ∈ s.pts)
    (hb : b ∈ s.pts) (hab : a < b) (hat : a ∈ t.pts) (hbt : b ∈ t.pts)
    (hdis : ∀ t' ∈ pre, (t'.pts ∩ t.pts).Subsingleton) :
    start ≤ a ∧ b ≤ finish ∧ ∀ c ∈ comps, b ≤ c.1 ∨ c.2 ≤ a := by
  have hsub : ∀ x ∈ s.pts, a ≤ x → x ≤ b → x ∈ t.pts := fun x hx h1 h2 =>
    Segment.pts_subset hat hbt ((Segment.mem_sub_iff ha hb hab x).mpr ⟨hx, h1, h2⟩)
  refine ⟨?_, ?_, ?_⟩
  · by_contra hn
    push Not at hn
    have hm : min b start ∈ s.pts := by
      rcases min_choice b start with e | e <;> rw [e]
      · exact hb
      · exact h.start_mem
    exact h.no_common ha hm (lt_min hab hn) hat
      (hsub _ hm (lt_min hab hn).le (min_le_left _ _)) hdis
      (fun x _ hx => .inl (hx.trans (min_le_right _ _)))
  · by_contra hn
    push Not at hn
    have hm : max a finish ∈ s.pts := by
      rcases max_choice a finish with e | e <;> rw [e]
      · exact ha
      · exact h.finish_mem
    exact h.no_common hm hb (max_lt hab hn)
      (hsub _ hm (le_max_left _ _) (max_lt hab hn).le) hbt hdis
      (fun x hx _ => .inr (.inl ((le_max_right _ _).trans hx)))
  · intro c hc
    by_contra hn
    push Not at hn
    obtain ⟨h1, h2, -, h3, -⟩ := h.comp c hc
    have hm : max a c.1 ∈ s.pts := by
      rcases max_choice a c.1 with e | e <;> rw [e]
      · exact ha
      · exact h1
    have hm' : min b c.2 ∈ s.pts := by
      rcases min_choice b c.2 with e | e <;> rw [e]
      · exact hb
      · exact h2
    have hlt : max a c.1 < min b c.2 := max_lt (lt_min hab hn.2) (lt_min hn.1 h3)
    exact h.no_common hm hm' hlt (hsub _ hm (le_max_left _ _) (hlt.le.trans (min_le_left _ _)))
      (hsub _ hm' ((le_max_left _ _).trans hlt.le) (min_le_left _ _)) hdis
      (fun x hx hx' => .inr (.inr ⟨c, hc, (le_max_right _ _).trans hx,
        hx'.trans (min_le_right _ _)⟩))

theorem skip (h : Cover s pre start finish comps) (ht : ¬ (s.pts ∩ t.pts).Nontrivial) :
    Cover s (pre ++ [t]) start finish comps where
  start_mem := h.start_mem
  finish_mem := h.finish_mem
  le := h.le
  comp := h.comp
  disj := h.disj
  cov_of := by
    intro x hx t' ht' hn hm
    rcases List.mem_append.mp ht' with ht' | ht'
    · exact h.cov_of x hx t' ht' hn hm
    · rw [List.mem_singleton.mp ht'] at hn
      exact (ht hn).elim
  of_cov := by
    intro x hx hr
    rcases h.of_cov x hx hr with ⟨t', ht', hm⟩ | h'
    · exact .inl ⟨t', by simp [ht'], hm⟩
    · exact .inr h'

theorem front (h : Cover s pre start finish comps) {b : Point K} (hb : b ∈ s.pts)
    (hab : start < b) (ht : ∀ x ∈ s.pts, x ∈ t.pts ↔ start ≤ x ∧ x ≤ b)
    (hdis : ∀ t' ∈ pre, (t'.pts ∩ t.pts).Subsingleton) :
    Cover s (pre ++ [t]) b finish comps := by
  have hat : start ∈ t.pts := (ht _ h.start_mem).mpr ⟨le_rfl, hab.le⟩
  have hbt : b ∈ t.pts := (ht _ hb).mpr ⟨hab.le, le_rfl⟩
  obtain ⟨-, hf, hc⟩ := h.gap h.start_mem hb hab hat hbt hdis
  refine ⟨hb, h.finish_mem, hf, ?_, h.disj, ?_, ?_⟩
  · intro c hcc
    obtain ⟨h1, h2, h3, h4, h5⟩ := h.comp c hcc
    refine ⟨h1, h2, ?_, h4, h5⟩
    rcases hc c hcc with h' | h'
    · exact h'
    · exact absurd (h3.trans_lt h4) (not_lt.mpr h')
  · intro x hx t' ht' hn hm
    rcases List.mem_append.mp ht' with ht' | ht'
    · rcases h.cov_of x hx t' ht' hn hm with h' | h'
      · exact .inl (h'.trans hab.le)
      · exact .inr h'
    · rw [List.mem_singleton.mp ht'] at hm
      exact .inl ((ht x hx).mp hm).2
  · intro x hx hr
    by_cases hx' : start ≤ x ∧ x ≤ b
    · exact .inl ⟨t, by simp, (ht x hx).mpr hx'⟩
    · have : Recorded start finish comps x := by
        rcases hr with h' | h'
        · left
          by_contra hn
          exact hx' ⟨(not_le.mp hn).le, h'⟩
        · exact .inr h'
      rcases h.of_cov x hx this with ⟨t', ht', hm⟩ | h'
      · exact .inl ⟨t', by simp [ht'], hm⟩
      · exact .inr h'

theorem back (h : Cover s pre start finish comps) {a : Point K} (ha : a ∈ s.pts)
    (hab : a < finish) (ht : ∀ x ∈ s.pts, x ∈ t.pts ↔ a ≤ x ∧ x ≤ finish)
    (hdis : ∀ t' ∈ pre, (t'.pts ∩ t.pts).Subsingleton) :
    Cover s (pre ++ [t]) start a comps := by
  have hat : a ∈ t.pts := (ht _ ha).mpr ⟨le_rfl, hab.le⟩
  have hbt : finish ∈ t.pts := (ht _ h.finish_mem).mpr ⟨hab.le, le_rfl⟩
  obtain ⟨hs, -, hc⟩ := h.gap ha h.finish_mem hab hat hbt hdis
  refine ⟨h.start_mem, ha, hs, ?_, h.disj, ?_, ?_⟩
  · intro c hcc
    obtain ⟨h1, h2, h3, h4, h5⟩ := h.comp c hcc
    refine ⟨h1, h2, h3, h4, ?_⟩
    rcases hc c hcc with h' | h'
    · exact absurd (h4.trans_le h5) (not_lt.mpr h')
    · exact h'
  · intro x hx t' ht' hn hm
    rcases List.mem_append.mp ht' with ht' | ht'
    · rcases h.cov_of x hx t' ht' hn hm with h' | h' | h'
      · exact .inl h'
      · exact .inr (.inl (hab.le.trans h'))
      · exact .inr (.inr h')
    · rw [List.mem_singleton.mp ht'] at hm
      exact .inr (.inl ((ht x hx).mp hm).1)
  · intro x hx hr
    by_cases hx' : a ≤ x ∧ x ≤ finish
    · exact .inl ⟨t, by simp, (ht x hx).mpr hx'⟩
    · have : Recorded start finish comps x := by
        rcases hr with h' | h' | h'
        · exact .inl h'
        · right; left
          by_contra hn
          exact hx' ⟨h', (not_le.mp hn).le⟩
        · exact .inr (.inr h')
      rcases h.of_cov x hx this with ⟨t', ht', hm⟩ | h'
      · exact .inl ⟨t', by simp [ht'], hm⟩
      · exact .inr h'

theorem middle (h : Cover s pre start finish comps) {a b : Point K} (ha : a ∈ s.pts)
    (hb : b ∈ s.pts) (hab : a < b) (ht : ∀ x ∈ s.pts, x ∈ t.pts ↔ a ≤ x ∧ x ≤ b)
    (hdis : ∀ t' ∈ pre, (t'.pts ∩ t.pts).Subsingleton) :
    Cover s (pre ++ [t]) start finish (comps ++ [(a, b)]) := by
  have hat : a ∈ t.pts := (ht _ ha).mpr ⟨le_rfl, hab.le⟩
  have hbt : b ∈ t.pts := (ht _ hb).mpr ⟨hab.le, le_rfl⟩
  obtain ⟨hs, hf, hc⟩ := h.gap ha hb hab hat hbt hdis
  refine ⟨h.start_mem, h.finish_mem, h.le, ?_, ?_, ?_, ?_⟩
  · intro c hcc
    rcases List.mem_append.mp hcc with hcc | hcc
    · exact h.comp c hcc
    · rw [List.mem_singleton.mp hcc]
      exact ⟨ha, hb, hs, hab, hf⟩
  · rw [List.pairwise_append]
    refine ⟨h.disj, by simp, ?_⟩
    intro c hcc d hd
    rw [List.mem_singleton.mp hd]
    exact (hc c hcc).symm
  · intro x hx t' ht' hn hm
    rcases List.mem_append.mp ht' with ht' | ht'
    · rcases h.cov_of x hx t' ht' hn hm with h' | h' | ⟨c, hcc, h'⟩
      · exact .inl h'
      · exact .inr (.inl h')
      · exact .inr (.inr ⟨c, by simp [hcc], h'⟩)
    · rw [List.mem_singleton.mp ht'] at hm
      exact .inr (.inr ⟨(a, b), by simp, (ht x hx).mp hm⟩)
  · intro x hx hr
    by_cases hx' : a ≤ x ∧ x ≤ b
    · exact .inl ⟨t, by simp, (ht x hx).mpr hx'⟩
    · have : Recorded start finish comps x := by
        rcases hr with h' | h' | ⟨c, hcc, h'⟩
        · exact .inl h'
        · exact .inr (.inl h')
        · rcases List.mem_append.mp hcc with hcc | hcc
          · exact .inr (.inr ⟨c, hcc, h'⟩)
          · rw [List.mem_singleton.mp hcc] at h'
            exact (hx' h').elim
      rcases h.of_cov x hx this with ⟨t', ht', hm⟩ | h'
      · exact .inl ⟨t', by simp [ht'], hm⟩
      · exact .inr h'

/-- In a covered segment every point of the gap lies in a component. -/
theorem next (h : Cover s pre start finish comps) (hs : s.pts ⊆ segsPts pre) {p : Point K}
    (hp : p ∈ s.pts) (h1 : start ≤ p) (h2 : p < finish) : ∃ c ∈ comps, c.1 ≤ p ∧ p < c.2 := by
  have hsub : (⟨p, finish⟩ : Segment K).pts ⊆ segsPts pre :=
    (Segment.pts_subset hp h.finish_mem).trans hs
  obtain ⟨t, ht, b, hb, hb', hpt, hbt⟩ := exists_germ_of_subset h2.ne hsub
  rw [Segment.mem_sub_iff hp h.finish_mem h2] at hb'
  have hpb : p < b := lt_of_le_of_ne hb'.2.1 hb.symm
  have hnon : (s.pts ∩ t.pts).Nontrivial := ⟨p, ⟨hp, hpt⟩, b, ⟨hb'.1, hbt⟩, hb.symm⟩
  obtain ⟨c', hc', d, hd, hd', hpc, hdc⟩ := exists_germ_cofinite hpb.ne
    (l := comps.map (fun c => (⟨c.1, c.2⟩ : Segment K))) (F := [p, b]) (by
      intro x hx
      have hx1 := (Segment.mem_sub_iff hp hb'.1 hpb x).mp hx
      by_cases e1 : x = p
      · right; simp [e1]
      by_cases e2 : x = b
      · right; simp [e2]
      left
      rcases h.cov_of x hx1.1 t ht hnon (Segment.pts_subset hpt hbt hx) with h' | h' | ⟨c, hc, h'⟩
      · exact absurd (le_antisymm (h'.trans h1) hx1.2.1) e1
      · exact absurd (le_antisymm hx1.2.2 (hb'.2.2.trans h')) e2
      · obtain ⟨m1, m2, -, m3, -⟩ := h.comp c hc
        exact ⟨⟨c.1, c.2⟩, List.mem_map.mpr ⟨c, hc, rfl⟩,
          (Segment.mem_sub_iff m1 m2 m3 x).mpr ⟨hx1.1, h'⟩⟩)
  obtain ⟨c, hc, rfl⟩ := List.mem_map.mp hc'
  obtain ⟨m1, m2, -, m3, -⟩ := h.comp c hc
  rw [Segment.mem_sub_iff m1 m2 m3] at hpc hdc
  rw [Segment.mem_sub_iff hp hb'.1 hpb] at hd'
  exact ⟨c, hc, hpc.2.1, (lt_of_le_of_ne hd'.2.1 hd.symm).trans_le hdc.2.2⟩

theorem subset_of_recorded (h : Cover s pre start finish comps) (hs : s.Nondegenerate)
    (hr : ∀ x ∈ s.pts, Recorded start finish comps x) : s.pts ⊆ segsPts pre :=
  subset_of_cofinite hs (F := [s.lo, s.hi]) (fun x hx => by
    simpa using h.of_cov x hx (hr x hx))

/-- Without components a segment is covered iff nothing is left between `start` and `finish`. -/
theorem covered_nil (h : Cover s pre start finish []) (hs : s.Nondegenerate) :
    s.pts ⊆ segsPts pre ↔ start = finish := by
  constructor
  · intro hsub
    by_contra hne
    obtain ⟨c, hc, -⟩ := h.next hsub h.start_mem le_rfl (lt_of_le_of_ne h.le hne)
    simp at hc
  · rintro rfl
    exact h.subset_of_recorded hs (fun x _ => (le_total x start).imp id Or.inl)

theorem covered_cons (h : Cover s pre start finish comps) (hs : s.Nondegenerate)
    {m M : Point K} (hm : ∀ c ∈ comps, m ≤ c.1) (hm' : ∃ c ∈ comps, c.1 = m)
    (hM : ∀ c ∈ comps, c.2 ≤ M) (hM' : ∃ c ∈ comps, c.2 = M) :
    s.pts ⊆ segsPts pre ↔
      m = start ∧ M = finish ∧ ∀ c ∈ comps, (∃ d ∈ comps, d.1 = c.2) ∨ c.2 = M := by
  constructor
  · intro hsub
    obtain ⟨c0, hc0, rfl⟩ := hm'
    obtain ⟨c1, hc1, rfl⟩ := hM'
    have hlt : start < finish := by
      obtain ⟨-, -, h3, h4, h5⟩ := h.comp c0 hc0
      exact (h3.trans_lt h4).trans_le h5
    refine ⟨?_, ?_, ?_⟩
    · obtain ⟨c, hc, h1, -⟩ := h.next hsub h.start_mem le_rfl hlt
      exact le_antisymm ((hm c hc).trans h1) (h.comp c0 hc0).2.2.1
    · obtain ⟨-, g2, g3, g4, g5⟩ := h.comp c1 hc1
      by_contra hne
      obtain ⟨c, hc, -, h1⟩ := h.next hsub g2 (g3.trans g4.le) (lt_of_le_of_ne g5 hne)
      exact absurd h1 (not_lt.mpr (hM c hc))
    · intro c hc
      by_cases e : c.2 = c1.2
      · exact .inr e
      · left
        obtain ⟨-, g2, g3, g4, g5⟩ := h.comp c hc
        obtain ⟨d, hd, h1, h2⟩ := h.next hsub g2 (g3.trans g4.le)
          ((lt_of_le_of_ne (hM c hc) e).trans_le (h.comp c1 hc1).2.2.2.2)
        refine ⟨d, hd, le_antisymm h1 ?_⟩
        have hcd : c ≠ d := by rintro rfl; exact lt_irrefl _ h2
        have : Std.Symm (fun c d : Point K × Point K => c.2 ≤ d.1 ∨ d.2 ≤ c.1) :=
          ⟨fun _ _ h => h.symm⟩
        have : c.2 ≤ d.1 ∨ d.2 ≤ c.1 := h.disj.forall hc hd hcd
        rcases this with h' | h'
        · exact h'
        · exact absurd (g4.trans h2) (not_lt.mpr h')
  · rintro ⟨rfl, rfl, hall⟩
    refine h.subset_of_recorded hs (fun x hx => ?_)
    by_contra hn
    unfold Recorded at hn
    push Not at hn
    obtain ⟨n1, n2, n3⟩ := hn
    obtain ⟨c0, hc0, e0⟩ := hm'
    obtain ⟨c, hc, hmax⟩ := Finset.exists_max_image
      (comps.toFinset.filter (fun c => c.1 ≤ x)) (fun c => c.1)
      ⟨c0, by simp [hc0]; rw [e0]; exact n1.le⟩
    simp only [Finset.mem_filter, List.mem_toFinset] at hc hmax
    have hcx := n3 c hc.1 hc.2
    rcases hall c hc.1 with ⟨d, hd, e⟩ | e
    · have := hmax d ⟨hd, e ▸ hcx.le⟩
      rw [e] at this
      exact absurd (h.comp c hc.1).2.2.2.1 (not_lt.mpr this)
    · rw [e] at hcx
      exact absurd hcx (not_lt.mpr n2.le)

end Cover

end Orient
