import Verif.Lemmas.Areal

/-! Two areal geometries are always in one of the relations; what remains of it if some points are known. -/

set_option linter.unusedSectionVars false
set_option linter.unusedSimpArgs false

namespace Orient

variable {K : Type} [Field K] [LinearOrder K] [IsStrictOrderedRing K]

section

variable {I B E I' B' E' : Set (Point K)}

/-- Points near to the boundary of the first set. -/
def NearBy (I B E I' E' : Set (Point K)) : Prop :=
  ∀ z ∈ B, (z ∈ I' → (I ∩ I').Nonempty ∧ (E ∩ I').Nonempty) ∧ (z ∈ E' → (I ∩ E').Nonempty)

theorem exists_rel (s : Split I B E) (s' : Split I' B' E') (n : NearBy I B E I' E') (n' : NearBy I' B' E' I E) :
    ∃ r, CompoundRel I B E I' B' E' r := by
  obtain ⟨s1, s2, s3, s4⟩ := s
  obtain ⟨t1, t2, t3, t4⟩ := s'
  by_cases h1 : (I ∩ I').Nonempty
  · by_cases h2 : (I ∩ E').Nonempty
    · by_cases h3 : (E ∩ I').Nonempty
      · exact ⟨.overlap, h1, h2, h3⟩
      · have k1 : I' ⊆ I := by
          intro x hx
          rcases s1 x with h | h | h
          · exact h
          · exact absurd ((n x h).1 hx).2 h3
          · exact absurd ⟨x, h, hx⟩ h3
        have k2 : B' ⊆ I ∪ B := by
          intro x hx
          rcases s1 x with h | h | h
          · exact .inl h
          · exact .inr h
          · exact absurd (Set.inter_comm _ _ ▸ (n' x hx).2 h) h3
        by_cases h4 : (B' ∩ I).Nonempty
        · by_cases h5 : (B ∩ B').Nonempty
          · exact ⟨.encloses, k1, k2, h4, h5⟩
          · refine ⟨.cover, ?_⟩
            rintro x (hx | hx)
            · exact k1 hx
            · exact (k2 hx).resolve_right fun h => h5 ⟨x, h, hx⟩
        · refine ⟨.composite, k1, fun x hx => ?_, h2⟩
          exact (k2 hx).resolve_left fun h => h4 ⟨x, hx, h⟩
    · have k1 : I ⊆ I' := by
        intro x hx
        rcases t1 x with h | h | h
        · exact h
        · exact absurd (Set.inter_comm _ _ ▸ ((n' x h).1 hx).2) h2
        · exact absurd ⟨x, hx, h⟩ h2
      have k2 : B ⊆ I' ∪ B' := by
        intro x hx
        rcases t1 x with h | h | h
        · exact .inl h
        · exact .inr h
        · exact absurd ((n x hx).2 h) h2
      by_cases h3 : (E ∩ I').Nonempty
      · by_cases h4 : (B ∩ I').Nonempty
        · by_cases h5 : (B ∩ B').Nonempty
          · exact ⟨.enclosed, k1, k2, h4, h5⟩
          · refine ⟨.within, ?_⟩
            rintro x (hx | hx)
            · exact k1 hx
            · exact (k2 hx).resolve_right fun h => h5 ⟨x, hx, h⟩
        · refine ⟨.component, k1, fun x hx => ?_, h3⟩
          exact (k2 hx).resolve_left fun h => h4 ⟨x, hx, h⟩
      · have k3 : I' ⊆ I := by
          intro x hx
          rcases s1 x with h | h | h
          · exact h
          · exact absurd ((n x h).1 hx).2 h3
          · exact absurd ⟨x, h, hx⟩ h3
        have k4 : B' ⊆ I ∪ B := by
          intro x hx
          rcases s1 x with h | h | h
          · exact .inl h
          · exact .inr h
          · exact absurd (Set.inter_comm _ _ ▸ (n' x hx).2 h) h3
        refine ⟨.equal, k1.antisymm k3, Set.Subset.antisymm (fun x hx => ?_) fun x hx => ?_⟩
        · exact (k2 hx).resolve_left fun h => s2 x (k3 h) hx
        · exact (k4 hx).resolve_left fun h => t2 x (k1 h) hx
  · have k1 : ∀ x, x ∈ I ∪ B → x ∈ I' ∪ B' → x ∈ B ∧ x ∈ B' := by
      rintro x (hx | hx) (hx' | hx')
      · exact absurd ⟨x, hx, hx'⟩ h1
      · exact absurd (Set.inter_comm _ _ ▸ ((n' x hx').1 hx).1) h1
      · exact absurd ((n x hx).1 hx').1 h1
      · exact ⟨hx, hx'⟩
    by_cases h5 : (B ∩ B').Nonempty
    · exact ⟨.touch, h5, fun x hx => k1 x hx.1 hx.2⟩
    · exact ⟨.disjoint, Set.eq_empty_iff_forall_notMem.mpr fun x hx => h5 ⟨x, k1 x hx.1 hx.2⟩⟩

/-- A relation of sets one of which has points outside of the other one. -/
theorem CompoundRel.of_left (s : Split I B E) (s' : Split I' B' E') (h1 : (I ∩ I').Nonempty)
    (h2 : (I ∩ E').Nonempty) {r : Relation} (h : CompoundRel I B E I' B' E' r) :
    r = .overlap ∨ r = .cover ∨ r = .encloses ∨ r = .composite := by
  obtain ⟨s1, s2, s3, s4⟩ := s
  obtain ⟨t1, t2, t3, t4⟩ := s'
  obtain ⟨x, x1, x2⟩ := h1
  obtain ⟨y, y1, y2⟩ := h2
  cases r <;>
    simp only [CompoundRel, Set.subset_def, Set.eq_empty_iff_forall_notMem, Set.Nonempty,
      Set.mem_inter_iff, Set.mem_union, Set.ext_iff] at h <;>
    grind

/-- A relation of sets which have points outside of each other and a common point. -/
theorem CompoundRel.of_both (s : Split I B E) (s' : Split I' B' E') (h1 : (I ∩ E').Nonempty)
    (h2 : (E ∩ I').Nonempty) (h3 : ((I ∪ B) ∩ (I' ∪ B')).Nonempty) {r : Relation}
    (h : CompoundRel I B E I' B' E' r) : r = .overlap ∨ r = .touch := by
  obtain ⟨s1, s2, s3, s4⟩ := s
  obtain ⟨t1, t2, t3, t4⟩ := s'
  obtain ⟨x, x1, x2⟩ := h1
  obtain ⟨y, y1, y2⟩ := h2
  obtain ⟨z, z1, z2⟩ := h3
  cases r <;>
    simp only [CompoundRel, Set.subset_def, Set.eq_empty_iff_forall_notMem, Set.Nonempty,
      Set.mem_inter_iff, Set.mem_union, Set.ext_iff] at h z1 z2 <;>
    grind

variable {Ia Ba Ea Ib Bb Eb Ij Bj Ej Ih Bh Eh Is Bs Es Iq Bq Eq : Set (Point K)}

/-- `inner_enclosed` if no inner points of the second polygon are known on the boundary of the first one. -/
theorem inner_enclosed_or (t : Holed Ia Ba Ea Ij Bj Ej) (sb : Split Ib Bb Eb)
    (ss : Split Is Bs Es) (sq : Split Iq Bq Eq)
    (qi : ∀ x, x ∈ Ia ∨ x ∈ Ba → x ∈ Iq ∨ x ∈ Bq → x ∈ Ba ∧ x ∈ Bq)
    (hi : ∀ x, x ∈ Ia → x ∈ Ib) (hb : ∀ x, x ∈ Ba → x ∈ Ib ∨ x ∈ Bb)
    (oi : ∀ x, x ∈ Is → x ∈ Ij) (ob : ∀ x, x ∈ Bs → x ∈ Ij ∨ x ∈ Bj)
    (meet : ∃ x, (x ∈ Ba ∨ x ∈ Bj) ∧ (x ∈ Bb ∨ x ∈ Bs ∨ x ∈ Bq))
    (out : ∃ z, (z ∈ Ea ∨ z ∈ Ij) ∧ z ∈ Ib ∧ z ∈ Es ∧ z ∈ Eq) :
    CompoundRel (Ia ∩ Ej) (Ba ∪ Bj) (Ea ∪ Ij) (Ib ∩ (Es ∩ Eq)) (Bb ∪ (Bs ∪ Bq)) (Eb ∪ (Is ∪ Iq)) .enclosed ∨
    CompoundRel (Ia ∩ Ej) (Ba ∪ Bj) (Ea ∪ Ij) (Ib ∩ (Es ∩ Eq)) (Bb ∪ (Bs ∪ Bq)) (Eb ∪ (Is ∪ Iq)) .component := by
  by_cases conn : ∃ z, (z ∈ Ba ∨ z ∈ Bj) ∧ z ∈ Ib ∧ z ∈ Es ∧ z ∈ Eq
  · exact .inl (inner_enclosed t sb ss sq qi hi hb oi ob meet conn)
  · obtain ⟨a1, a2, a3, a4⟩ := sb
    obtain ⟨⟨a1', a2', a3', a4'⟩, ⟨b1', b2', b3', b4'⟩, c1', c2'⟩ := t
    obtain ⟨s1, s2, s3, s4⟩ := ss
    obtain ⟨q1, q2, q3, q4⟩ := sq
    refine .inr ?_
    simp only [CompoundRel, Set.subset_def, Set.eq_empty_iff_forall_notMem, Set.Nonempty,
      Set.mem_inter_iff, Set.mem_union, Set.ext_iff]
    refine ⟨?_, ?_, ?_⟩ <;> grind

/-- `same_border_table` if the interiors need not be connected. -/
theorem same_border_or (t : Holed Ib Bb Eb Ij Bj Ej) (g : Holed Ib Bb Eb Ih Bh Eh) {r : Relation}
    (h : CompoundRel Ih Bh Eh Ij Bj Ej r) (nb : ∃ x, x ∈ Bb)
    (beside : ∃ y, y ∈ Ib ∧ y ∈ Eh ∧ y ∈ Ej) (ne : (∃ x, x ∈ Ih) ∧ ∃ x, x ∈ Ij)
    (ne' : (∃ x, x ∈ Bh) ∧ ∃ x, x ∈ Bj)
    (near : ∀ z, z ∈ Bj → z ∈ Ih → ∃ y, y ∈ Ej ∧ y ∈ Ih)
    (near' : ∀ z, z ∈ Bh → z ∈ Ij → ∃ y, y ∈ Eh ∧ y ∈ Ij) :
    match (generalizing := false) r with
      | .disjoint | .touch | .overlap =>
        CompoundRel (Ib ∩ Ej) (Bb ∪ Bj) (Eb ∪ Ij) (Ib ∩ Eh) (Bb ∪ Bh) (Eb ∪ Ih) .overlap
      | .cover | .encloses | .composite =>
        CompoundRel (Ib ∩ Ej) (Bb ∪ Bj) (Eb ∪ Ij) (Ib ∩ Eh) (Bb ∪ Bh) (Eb ∪ Ih) .encloses ∨
        CompoundRel (Ib ∩ Ej) (Bb ∪ Bj) (Eb ∪ Ij) (Ib ∩ Eh) (Bb ∪ Bh) (Eb ∪ Ih) .composite
      | .equal => CompoundRel (Ib ∩ Ej) (Bb ∪ Bj) (Eb ∪ Ij) (Ib ∩ Eh) (Bb ∪ Bh) (Eb ∪ Ih) .equal
      | _ => CompoundRel (Ib ∩ Ej) (Bb ∪ Bj) (Eb ∪ Ij) (Ib ∩ Eh) (Bb ∪ Bh) (Eb ∪ Ih) .enclosed ∨
        CompoundRel (Ib ∩ Ej) (Bb ∪ Bj) (Eb ∪ Ij) (Ib ∩ Eh) (Bb ∪ Bh) (Eb ∪ Ih) .component := by
  obtain ⟨⟨a1, a2, a3, a4⟩, ⟨b1, b2, b3, b4⟩, c1, c2⟩ := g
  obtain ⟨⟨a1', a2', a3', a4'⟩, ⟨b1', b2', b3', b4'⟩, c1', c2'⟩ := t
  obtain ⟨⟨n1, h1⟩, n2, h2⟩ := ne
  obtain ⟨⟨n3, h3⟩, n4, h4⟩ := ne'
  cases r <;>
    simp only [CompoundRel, Set.subset_def, Set.eq_empty_iff_forall_notMem, Set.Nonempty,
      Set.mem_inter_iff, Set.mem_union, Set.ext_iff] at h ⊢ <;>
    grind

/-- `multiregion_table` if the interior of the polygon need not be connected. -/
theorem multiregion_or (g : Holed Ib Bb Eb Ih Bh Eh)
    (ss : Split Is Bs Es) (sq : Split Iq Bq Eq) (sm : Split (Is ∪ Iq) (Bs ∪ Bq) (Es ∩ Eq))
    (qi : ∀ x, x ∈ Ib ∨ x ∈ Bb → x ∈ Iq ∨ x ∈ Bq → x ∈ Bb ∧ x ∈ Bq)
    (si : ∀ x, x ∈ Is → x ∈ Ib) (sb : ∀ x, x ∈ Bs → x ∈ Ib ∨ x ∈ Bb) {noneTouch : Bool}
    (touch : if noneTouch then ∀ x, x ∈ Bs ∨ x ∈ Bq → x ∉ Bb else ∃ x, (x ∈ Bs ∨ x ∈ Bq) ∧ x ∈ Bb)
    {r : Relation} (h : CompoundRel Is Bs Es Ih Bh Eh r) (ne : (∃ x, x ∈ Is) ∧ ∃ x, x ∈ Bs)
    (nh : (∃ x, x ∈ Ih) ∧ ∃ x, x ∈ Bh) (nb : ∃ x, x ∈ Bb)
    {all : Bool} (none : all = true → (∀ x, x ∉ Iq) ∧ ∀ x, x ∉ Bq)
    (some : all = false → ∃ x, x ∈ Iq)
    (near : ∀ z, z ∈ Bh → z ∈ Is → ∃ y, (y ∈ Ib ∧ y ∈ Eh) ∧ y ∈ Is)
    (bi : ∃ x, x ∈ Bs ∧ x ∈ Ib) {q : Relation}
    (h' : CompoundRel (Is ∪ Iq) (Bs ∪ Bq) (Es ∩ Eq) (Ib ∩ Eh) (Bb ∪ Bh) (Eb ∪ Ih) q) :
    let a : Relation := match (generalizing := false) r with
        | .disjoint => if all then (if noneTouch then .within else .enclosed) else .overlap
        | .touch => if all then .enclosed else .overlap
        | .overlap => .overlap
        | .cover | .encloses | .composite => .overlap
        | .within => if noneTouch then .disjoint else .touch
        | _ => .touch
    CompoundRel (Is ∪ Iq) (Bs ∪ Bq) (Es ∩ Eq) (Ib ∩ Eh) (Bb ∪ Bh) (Eb ∪ Ih) a ∨
      (a = .overlap ∧ (CompoundRel (Is ∪ Iq) (Bs ∪ Bq) (Es ∩ Eq) (Ib ∩ Eh) (Bb ∪ Bh) (Eb ∪ Ih) .encloses ∨
        CompoundRel (Is ∪ Iq) (Bs ∪ Bq) (Es ∩ Eq) (Ib ∩ Eh) (Bb ∪ Bh) (Eb ∪ Ih) .composite)) ∨
      (a = .enclosed ∧ (CompoundRel (Is ∪ Iq) (Bs ∪ Bq) (Es ∩ Eq) (Ib ∩ Eh) (Bb ∪ Bh) (Eb ∪ Ih) .component ∨
        CompoundRel (Is ∪ Iq) (Bs ∪ Bq) (Es ∩ Eq) (Ib ∩ Eh) (Bb ∪ Bh) (Eb ∪ Ih) .equal)) := by
  have sg := g.split
  have over : ((Is ∪ Iq) ∩ (Ib ∩ Eh)).Nonempty → ((Is ∪ Iq) ∩ (Eb ∪ Ih)).Nonempty →
      CompoundRel (Is ∪ Iq) (Bs ∪ Bq) (Es ∩ Eq) (Ib ∩ Eh) (Bb ∪ Bh) (Eb ∪ Ih) .overlap ∨
        CompoundRel (Is ∪ Iq) (Bs ∪ Bq) (Es ∩ Eq) (Ib ∩ Eh) (Bb ∪ Bh) (Eb ∪ Ih) .encloses ∨
        CompoundRel (Is ∪ Iq) (Bs ∪ Bq) (Es ∩ Eq) (Ib ∩ Eh) (Bb ∪ Bh) (Eb ∪ Ih) .composite := by
    intro k1 k2
    rcases h'.of_left sm sg k1 k2 with rfl | rfl | rfl | rfl
    · exact .inl h'
    · obtain ⟨x, hx⟩ := nb
      rcases h' (.inr (.inl hx)) with k | k
      · exact absurd hx (g.border.ib x (si x k))
      · exact absurd k fun k => sq.ib x k (qi x (.inr hx) (.inl k)).2
    · exact .inr (.inl h')
    · exact .inr (.inr h')
  obtain ⟨⟨a1, a2, a3, a4⟩, ⟨b1, b2, b3, b4⟩, c1, c2⟩ := g
  obtain ⟨s1, s2, s3, s4⟩ := ss
  obtain ⟨q1, q2, q3, q4⟩ := sq
  obtain ⟨⟨n1, h1⟩, n2, h2⟩ := ne
  obtain ⟨⟨n3, h3⟩, n4, h4⟩ := nh
  obtain ⟨m, m1, m2⟩ := bi
  have over' : (∃ x, x ∈ Is ∧ x ∈ Ib ∧ x ∈ Eh) → (∃ x, x ∈ Is ∧ x ∈ Ih) ∨ (∃ x, x ∈ Iq) → _ := fun k1 k2 =>
    over (k1.imp fun x hx => ⟨.inl hx.1, hx.2⟩) (k2.elim (fun k => k.imp fun x hx => ⟨.inl hx.1, .inr hx.2⟩)
      fun ⟨x, hx⟩ => ⟨x, .inr hx, .inl ((a1 x).elim (fun k => absurd (qi x (.inl k) (.inl hx)).2 (q2 x hx))
        fun k => k.elim (fun k => absurd (qi x (.inr k) (.inl hx)).2 (q2 x hx)) id)⟩)
  cases r
  case disjoint =>
    cases all
    · refine (over' ⟨n1, h1, si _ h1, ?_⟩ (.inr (some rfl))).imp_right fun h => .inl ⟨rfl, h⟩
      simp only [CompoundRel, Set.eq_empty_iff_forall_notMem, Set.mem_inter_iff, Set.mem_union] at h
      grind
    · refine .inl ?_
      cases noneTouch <;>
      simp only [CompoundRel, Set.subset_def, Set.eq_empty_iff_forall_notMem, Set.Nonempty,
        Set.mem_inter_iff, Set.mem_union, Set.ext_iff, if_true, if_false, Bool.false_eq_true] at h touch ⊢ <;>
      grind
  case touch =>
    cases all
    · refine (over' ⟨n1, h1, si _ h1, ?_⟩ (.inr (some rfl))).imp_right fun h => .inl ⟨rfl, h⟩
      simp only [CompoundRel, Set.subset_def, Set.mem_inter_iff, Set.mem_union] at h
      grind
    · suffices q = .enclosed ∨ q = .component ∨ q = .equal by
        rcases this with rfl | rfl | rfl
        · exact .inl h'
        · exact .inr (.inr ⟨rfl, .inl h'⟩)
        · exact .inr (.inr ⟨rfl, .inr h'⟩)
      have := none rfl
      clear over over' sm sg touch near some
      cases q <;>
      simp only [CompoundRel, Set.subset_def, Set.eq_empty_iff_forall_notMem, Set.Nonempty,
        Set.mem_inter_iff, Set.mem_union, Set.ext_iff, if_true, if_false, Bool.false_eq_true] at h h' ⊢ <;>
      grind
  case overlap =>
    refine (over' ?_ (.inl ?_)).imp_right fun h => .inl ⟨rfl, h⟩ <;>
      simp only [CompoundRel, Set.subset_def, Set.Nonempty, Set.mem_inter_iff, Set.mem_union] at h <;> grind
  case cover =>
    refine (over' ?_ (.inl ?_)).imp_right fun h => .inl ⟨rfl, h⟩ <;>
      simp only [CompoundRel, Set.subset_def, Set.Nonempty, Set.mem_inter_iff, Set.mem_union] at h <;> grind
  case encloses =>
    refine (over' ?_ (.inl ?_)).imp_right fun h => .inl ⟨rfl, h⟩ <;>
      simp only [CompoundRel, Set.subset_def, Set.Nonempty, Set.mem_inter_iff, Set.mem_union] at h <;> grind
  case composite =>
    refine (over' ?_ (.inl ?_)).imp_right fun h => .inl ⟨rfl, h⟩ <;>
      simp only [CompoundRel, Set.subset_def, Set.Nonempty, Set.mem_inter_iff, Set.mem_union] at h <;> grind
  all_goals
    refine .inl ?_
    clear over over' sm sg h' near some none
    cases noneTouch <;>
    simp only [CompoundRel, Set.subset_def, Set.eq_empty_iff_forall_notMem, Set.Nonempty,
      Set.mem_inter_iff, Set.mem_union, Set.ext_iff, if_true, if_false, Bool.false_eq_true] at h touch ⊢ <;>
    grind

end

theorem Contour.Simple.beside {a : Contour K} (h : a.Simple) {T : List (Segment K)} {I E : Set (Point K)}
    (t : Areal T I E) : NearBy a.interior a.pts a.exterior I E := fun _ hz => h.areal.near t hz

theorem Polygon.Valid.beside {g : Polygon K} (h : g.Valid) {T : List (Segment K)} {I E : Set (Point K)}
    (t : Areal T I E) : NearBy g.interior g.pts g.exterior I E := fun _ hz => h.near t hz

theorem Multiregion.Valid.beside {m : List (Contour K)} (h : Multiregion.Valid m) {T : List (Segment K)}
    {I E : Set (Point K)} (t : Areal T I E) :
    NearBy (Multiregion.interior m) (Multiregion.pts m) (Multiregion.exterior m) I E := fun _ hz => h.near t hz

/-- A contour with points at both sides of another one meets it. -/
theorem Contour.meet_of_both {a b : Contour K} (h1 : (a.pts ∩ b.interior).Nonempty)
    (h2 : (a.pts ∩ b.exterior).Nonempty) : (a.pts ∩ b.pts).Nonempty := by
  by_contra h
  exact Contour.not_both_of_disjoint (Set.not_nonempty_iff_eq_empty.mp h) h1 h2

end Orient
