import Verif.Spec.Multi
import Mathlib.Tactic.Tauto

/-! What follows for a polygon from the relations with its border and with its holes: statements about
sets only. -/

set_option linter.unusedSectionVars false
set_option linter.unusedSimpArgs false

namespace Orient

variable {K : Type}

/-- The sets divide the plane. -/
structure Split (I B E : Set (Point K)) : Prop where
  cover : ∀ x, x ∈ I ∨ x ∈ B ∨ x ∈ E
  ib : ∀ x, x ∈ I → x ∉ B
  ie : ∀ x, x ∈ I → x ∉ E
  be : ∀ x, x ∈ B → x ∉ E

variable {I B E Ib Bb Eb Ih Bh Eh : Set (Point K)}

/-- A part of the plane inside of a border and outside of holes. -/
structure Holed (Ib Bb Eb Ih Bh Eh : Set (Point K)) : Prop where
  border : Split Ib Bb Eb
  holes : Split Ih Bh Eh
  inner : ∀ x, x ∈ Ih → x ∈ Ib
  inside : ∀ x, x ∈ Bh → x ∈ Ib ∨ x ∈ Bb

theorem Holed.split (h : Holed Ib Bb Eb Ih Bh Eh) : Split (Ib ∩ Eh) (Bb ∪ Bh) (Eb ∪ Ih) := by
  obtain ⟨⟨a1, a2, a3, a4⟩, ⟨b1, b2, b3, b4⟩, c1, c2⟩ := h
  refine ⟨fun x => ?_, fun x => ?_, fun x => ?_, fun x => ?_⟩ <;>
    simp only [Set.mem_inter_iff, Set.mem_union] <;> grind

theorem region_inside_table (s : Split I B E) (g : Holed Ib Bb Eb Ih Bh Eh)
    (near : ∀ z, z ∈ Bb ∨ z ∈ Bh → (z ∈ I → ∃ y, (y ∈ Ib ∧ y ∈ Eh) ∧ y ∈ I) ∧
      (z ∈ E → ∃ y, (y ∈ Ib ∧ y ∈ Eh) ∧ y ∈ E))
    (out : ∃ z, z ∈ Bb ∧ z ∈ E) (nB : ∃ x, x ∈ B) (nh : (∃ x, x ∈ Ih) ∧ ∃ x, x ∈ Bh)
    {r r' : Relation}
    (hr : r = .within ∨ r = .enclosed) (h : CompoundRel I B E Ib Bb Eb r)
    (h' : CompoundRel I B E Ih Bh Eh r') :
    (match (generalizing := false) r' with
      | .disjoint => CompoundRel I B E (Ib ∩ Eh) (Bb ∪ Bh) (Eb ∪ Ih) r
      | .touch => CompoundRel I B E (Ib ∩ Eh) (Bb ∪ Bh) (Eb ∪ Ih) .enclosed ∨
          CompoundRel I B E (Ib ∩ Eh) (Bb ∪ Bh) (Eb ∪ Ih) .component
      | .equal | .component | .enclosed => CompoundRel I B E (Ib ∩ Eh) (Bb ∪ Bh) (Eb ∪ Ih) .touch
      | .within => CompoundRel I B E (Ib ∩ Eh) (Bb ∪ Bh) (Eb ∪ Ih) .disjoint
      | _ => CompoundRel I B E (Ib ∩ Eh) (Bb ∪ Bh) (Eb ∪ Ih) .overlap) := by
  obtain ⟨s1, s2, s3, s4⟩ := s
  obtain ⟨⟨a1, a2, a3, a4⟩, ⟨b1, b2, b3, b4⟩, c1, c2⟩ := g
  obtain ⟨z, z1, z2⟩ := out
  obtain ⟨y, ⟨y1, y2⟩, y3⟩ := (near z (.inl z1)).2 z2
  obtain ⟨⟨w, hw⟩, v, hv⟩ := nh
  obtain ⟨b, hb⟩ := nB
  rcases hr with rfl | rfl <;> cases r' <;>
    simp only [CompoundRel, Set.subset_def, Set.eq_empty_iff_forall_notMem, Set.Nonempty,
      Set.mem_inter_iff, Set.mem_union, Set.ext_iff] at h h' ⊢ <;>
    grind

/-- The relation of a region to a polygon, if the region is not inside of the border. -/
theorem region_outside_table (s : Split I B E) (g : Holed Ib Bb Eb Ih Bh Eh) {r : Relation}
    (h : CompoundRel I B E Ib Bb Eb r)
    (o : r = .overlap → (∃ y, (y ∈ Ib ∧ y ∈ Eh) ∧ y ∈ I) ∧ ∃ y, (y ∈ Ib ∧ y ∈ Eh) ∧ y ∈ E)
    (n : ∃ x, x ∈ Bb) (nh : ∃ x, x ∈ Bh ∧ x ∈ Ib) :
    (match (generalizing := false) r with
      | .disjoint | .touch | .overlap | .cover | .encloses =>
        CompoundRel I B E (Ib ∩ Eh) (Bb ∪ Bh) (Eb ∪ Ih) r
      | .composite | .equal => CompoundRel I B E (Ib ∩ Eh) (Bb ∪ Bh) (Eb ∪ Ih) .encloses
      | _ => True) := by
  obtain ⟨s1, s2, s3, s4⟩ := s
  obtain ⟨⟨a1, a2, a3, a4⟩, ⟨b1, b2, b3, b4⟩, c1, c2⟩ := g
  obtain ⟨v, v1, v2⟩ := nh
  obtain ⟨b, hb⟩ := n
  cases r <;>
    simp only [CompoundRel, Set.subset_def, Set.eq_empty_iff_forall_notMem, Set.Nonempty,
      Set.mem_inter_iff, Set.mem_union, Set.ext_iff] at h o ⊢ <;>
    grind

/-- The relation of a linear geometry to a polygon. -/
theorem linear_table {S : Set (Point K)} (g : Holed Ib Bb Eb Ih Bh Eh) {P N : Prop} {r r' q : Relation}
    (h : LinearCompoundRel S Ib Bb Eb r) (n : ∃ x, x ∈ S)
    (m : r = .cross → ∃ x, x ∈ S ∧ (x ∈ Bb ∨ x ∈ Bh))
    (h' : LinearCompoundRel S Ih Bh Eh r' ∨ (r' = .cross ∧ ¬ N ∧ LinearCompoundRel S Ih Bh Eh .enclosed))
    (m1 : P → (∃ x, x ∈ S ∧ x ∈ Ib) → (∃ x, x ∈ S ∧ x ∈ Eb) → ∃ x, x ∈ S ∧ x ∈ Ib ∧ x ∈ Eh)
    (m2 : P → (∀ x, x ∈ S → x ∉ Eb) → (∃ x, x ∈ S ∧ x ∈ Ib) → (∃ x, x ∈ S ∧ x ∉ Eh) →
      (∃ x, x ∈ S ∧ x ∈ Eh) → ∃ x, x ∈ S ∧ x ∈ Ib ∧ x ∈ Eh)
    (hq : r ≠ .within → r ≠ .enclosed → q = r)
    (hq' : r = .within ∨ r = .enclosed → (r' = .disjoint → q = r) ∧ (r' = .touch → q = .enclosed) ∧
      (r' = .cross → q = .cross) ∧ (r' = .component → q = .component) ∧
      (r' = .enclosed → q = .touch) ∧ (r' = .within → q = .disjoint)) :
    LinearCompoundRel S (Ib ∩ Eh) (Bb ∪ Bh) (Eb ∪ Ih) q ∨
      (q = .cross ∧ (¬ P ∨ ¬ N) ∧ LinearCompoundRel S (Ib ∩ Eh) (Bb ∪ Bh) (Eb ∪ Ih) .touch) ∨
      (q = .enclosed ∧ ¬ P ∧ LinearCompoundRel S (Ib ∩ Eh) (Bb ∪ Bh) (Eb ∪ Ih) .component) := by
  obtain ⟨⟨a1, a2, a3, a4⟩, ⟨b1, b2, b3, b4⟩, c1, c2⟩ := g
  obtain ⟨b, hb⟩ := n
  have fin : ∀ q', q = q' → LinearCompoundRel S (Ib ∩ Eh) (Bb ∪ Bh) (Eb ∪ Ih) q' →
    LinearCompoundRel S (Ib ∩ Eh) (Bb ∪ Bh) (Eb ∪ Ih) q ∨
      (q = .cross ∧ (¬ P ∨ ¬ N) ∧ LinearCompoundRel S (Ib ∩ Eh) (Bb ∪ Bh) (Eb ∪ Ih) .touch) ∨
      (q = .enclosed ∧ ¬ P ∧ LinearCompoundRel S (Ib ∩ Eh) (Bb ∪ Bh) (Eb ∪ Ih) .component) := by
    rintro q' rfl h; exact .inl h
  by_cases hin : r = .within ∨ r = .enclosed
  · have hq' := hq' hin
    obtain ⟨o1, o2⟩ : (∀ x, x ∈ S → x ∉ Eb) ∧ ∃ x, x ∈ S ∧ x ∈ Ib := by
      rcases hin with rfl | rfl <;>
        simp only [LinearCompoundRel, Set.subset_def, Set.eq_empty_iff_forall_notMem, Set.Nonempty,
          Set.mem_inter_iff] at h <;> grind
    rcases h' with h' | ⟨rfl, h1, h'⟩
    · cases r' <;> first
        | exact h'.elim
        | simp only [LinearCompoundRel, Set.subset_def, Set.eq_empty_iff_forall_notMem, Set.Nonempty,
            Set.mem_inter_iff] at h'
      · refine fin _ (hq'.1 rfl) ?_
        rcases hin with rfl | rfl <;>
        simp only [LinearCompoundRel, Set.subset_def, Set.eq_empty_iff_forall_notMem, Set.Nonempty,
          Set.mem_inter_iff, Set.mem_union] at h ⊢ <;> grind
      · by_cases hP : P
        · refine fin _ (hq'.2.1 rfl) ?_
          have := m2 hP o1 o2 (by grind) (by grind)
          simp only [LinearCompoundRel, Set.subset_def, Set.eq_empty_iff_forall_notMem, Set.Nonempty,
            Set.mem_inter_iff, Set.mem_union]
          grind
        · by_cases hI : ∃ x, x ∈ S ∧ x ∈ Ib ∧ x ∈ Eh
          · refine fin _ (hq'.2.1 rfl) ?_
            simp only [LinearCompoundRel, Set.subset_def, Set.eq_empty_iff_forall_notMem, Set.Nonempty,
              Set.mem_inter_iff, Set.mem_union]
            grind
          · refine .inr (.inr ⟨hq'.2.1 rfl, hP, ?_⟩)
            simp only [LinearCompoundRel, Set.subset_def, Set.mem_union]
            grind
      · by_cases hI : ∃ x, x ∈ S ∧ x ∈ Ib ∧ x ∈ Eh
        · refine fin _ (hq'.2.2.1 rfl) ?_
          simp only [LinearCompoundRel, Set.subset_def, Set.eq_empty_iff_forall_notMem, Set.Nonempty,
            Set.mem_inter_iff, Set.mem_union]
          grind
        · refine .inr (.inl ⟨hq'.2.2.1 rfl, .inl fun hP => ?_, ?_⟩)
          · exact hI (m2 hP o1 o2 (by grind) (by grind))
          · simp only [LinearCompoundRel, Set.subset_def, Set.eq_empty_iff_forall_notMem, Set.Nonempty,
              Set.mem_inter_iff, Set.mem_union]
            grind
      · refine fin _ (hq'.2.2.2.1 rfl) ?_
        simp only [LinearCompoundRel, Set.subset_def, Set.mem_union]
        grind
      · refine fin _ (hq'.2.2.2.2.1 rfl) ?_
        simp only [LinearCompoundRel, Set.subset_def, Set.eq_empty_iff_forall_notMem, Set.Nonempty,
          Set.mem_inter_iff, Set.mem_union]
        grind
      · refine fin _ (hq'.2.2.2.2.2 rfl) ?_
        simp only [LinearCompoundRel, Set.subset_def, Set.mem_union]
        grind
    · refine .inr (.inl ⟨hq'.2.2.1 rfl, .inr h1, ?_⟩)
      simp only [LinearCompoundRel, Set.subset_def, Set.eq_empty_iff_forall_notMem, Set.Nonempty,
        Set.mem_inter_iff, Set.mem_union] at h' ⊢
      grind
  · have hq := hq (fun h => hin (.inl h)) (fun h => hin (.inr h))
    subst hq
    cases q <;> first
        | exact h.elim
        | exact (hin (.inl rfl)).elim
        | exact (hin (.inr rfl)).elim
        | simp only [LinearCompoundRel, Set.subset_def, Set.eq_empty_iff_forall_notMem, Set.Nonempty,
            Set.mem_inter_iff, Set.mem_union] at h ⊢
    · grind
    · grind
    · by_cases hI : ∃ x, x ∈ S ∧ x ∈ Ib ∧ x ∈ Eh
      · grind
      · refine .inr (.inl ⟨trivial, .inl fun hP => ?_, ?_⟩)
        · exact hI (m1 hP h.1 h.2)
        · have := m rfl
          grind
    · grind

section

variable {Ia Ba Ea Ij Bj Ej : Set (Point K)}

/-- The relation of polygons with apart, touching or overlapping borders. -/
theorem borders_table (t : Holed Ia Ba Ea Ij Bj Ej) (g : Holed Ib Bb Eb Ih Bh Eh) {r : Relation}
    (h : CompoundRel Ia Ba Ea Ib Bb Eb r)
    (o : r = .overlap → (∃ y, (y ∈ Ia ∧ y ∈ Ej) ∧ y ∈ Ib ∧ y ∈ Eh) ∧
      (∃ y, (y ∈ Ia ∧ y ∈ Ej) ∧ y ∈ Eb) ∧ ∃ y, (y ∈ Ib ∧ y ∈ Eh) ∧ y ∈ Ea)
    (hr : r = .disjoint ∨ r = .touch ∨ r = .overlap) :
    CompoundRel (Ia ∩ Ej) (Ba ∪ Bj) (Ea ∪ Ij) (Ib ∩ Eh) (Bb ∪ Bh) (Eb ∪ Ih) r := by
  obtain ⟨⟨a1, a2, a3, a4⟩, ⟨b1, b2, b3, b4⟩, c1, c2⟩ := g
  obtain ⟨⟨a1', a2', a3', a4'⟩, ⟨b1', b2', b3', b4'⟩, c1', c2'⟩ := t
  rcases hr with rfl | rfl | rfl <;>
    simp only [CompoundRel, Set.subset_def, Set.eq_empty_iff_forall_notMem, Set.Nonempty,
      Set.mem_inter_iff, Set.mem_union, Set.ext_iff] at h o ⊢ <;>
    grind

/-- The relation of polygons with the same border: `r` is the relation of the holes of the second one to
those of the first one. -/
theorem same_border_table (t : Holed Ib Bb Eb Ij Bj Ej) (g : Holed Ib Bb Eb Ih Bh Eh) {r : Relation}
    (h : CompoundRel Ih Bh Eh Ij Bj Ej r) (nb : ∃ x, x ∈ Bb)
    (beside : ∃ y, y ∈ Ib ∧ y ∈ Eh ∧ y ∈ Ej) (ne : (∃ x, x ∈ Ih) ∧ ∃ x, x ∈ Ij)
    (nh : ∃ x, x ∈ Bh ∧ x ∈ Ib) (nj : ∃ x, x ∈ Bj ∧ x ∈ Ib)
    (near : ∀ z, z ∈ Bj → z ∈ Ih → ∃ y, y ∈ Ej ∧ y ∈ Ih)
    (near' : ∀ z, z ∈ Bh → z ∈ Ij → ∃ y, y ∈ Eh ∧ y ∈ Ij)
    (conn : ∀ y, y ∈ Ib → y ∈ Ej → y ∈ Ih → ∃ z, z ∈ Bh ∧ z ∈ Ib ∧ z ∈ Ej)
    (conn' : ∀ y, y ∈ Ib → y ∈ Eh → y ∈ Ij → ∃ z, z ∈ Bj ∧ z ∈ Ib ∧ z ∈ Eh) :
    CompoundRel (Ib ∩ Ej) (Bb ∪ Bj) (Eb ∪ Ij) (Ib ∩ Eh) (Bb ∪ Bh) (Eb ∪ Ih)
      (match (generalizing := false) r with
        | .disjoint | .touch | .overlap => .overlap
        | .cover | .encloses | .composite => .encloses
        | .equal => .equal
        | _ => .enclosed) := by
  obtain ⟨⟨a1, a2, a3, a4⟩, ⟨b1, b2, b3, b4⟩, c1, c2⟩ := g
  obtain ⟨⟨a1', a2', a3', a4'⟩, ⟨b1', b2', b3', b4'⟩, c1', c2'⟩ := t
  obtain ⟨⟨n1, h1⟩, n2, h2⟩ := ne
  cases r <;>
    simp only [CompoundRel, Set.subset_def, Set.eq_empty_iff_forall_notMem, Set.Nonempty,
      Set.mem_inter_iff, Set.mem_union, Set.ext_iff] at h ⊢ <;>
    grind

variable {Is Bs Es Iq Bq Eq : Set (Point K)}

/-- Holes which are not inside of other holes have points outside of them. -/
theorem outside_of_rel (ss : Split Is Bs Es) (sj : Split Ij Bj Ej) {r : Relation}
    (h : CompoundRel Is Bs Es Ij Bj Ej r) (ni : ∃ x, x ∈ Is) (nj : ∃ x, x ∈ Bj)
    (near : ∀ z, z ∈ Bj → z ∈ Is → ∃ y, y ∈ Ej ∧ y ∈ Is)
    (hr : r ≠ .equal ∧ r ≠ .component ∧ r ≠ .enclosed ∧ r ≠ .within) : ∃ y, y ∈ Is ∧ y ∈ Ej := by
  obtain ⟨s1, s2, s3, s4⟩ := ss
  obtain ⟨b1', b2', b3', b4'⟩ := sj
  obtain ⟨n1, h1⟩ := ni
  obtain ⟨n2, h2⟩ := nj
  cases r <;>
    simp only [CompoundRel, Set.subset_def, Set.eq_empty_iff_forall_notMem, Set.Nonempty,
      Set.mem_inter_iff, Set.mem_union, Set.ext_iff, ne_eq] at h hr ⊢ <;>
    grind

/-- Holes inside of other holes, which do not coincide with them. -/
theorem inside_of_rel {r : Relation} (h : CompoundRel Is Bs Es Ij Bj Ej r) (ne : ∃ x, x ∈ Bs)
    (hr : r = .equal ∨ r = .component ∨ r = .enclosed) :
    (∀ x, x ∈ Is → x ∈ Ij) ∧ (∀ x, x ∈ Bs → x ∈ Ij ∨ x ∈ Bj) ∧ ∃ x, x ∈ Bs ∧ x ∈ Bj := by
  obtain ⟨n2, h2⟩ := ne
  rcases hr with rfl | rfl | rfl <;>
    simp only [CompoundRel, Set.subset_def, Set.eq_empty_iff_forall_notMem, Set.Nonempty,
      Set.mem_inter_iff, Set.mem_union, Set.ext_iff] at h <;>
    grind

/-- The relation of a polygon to one with a bigger border: the holes of the second polygon are divided
into those inside of the border of the first one and those outside of it, and those inside are
in holes of the first polygon. -/
theorem inner_enclosed (t : Holed Ia Ba Ea Ij Bj Ej) (sb : Split Ib Bb Eb)
    (ss : Split Is Bs Es) (sq : Split Iq Bq Eq)
    (qi : ∀ x, x ∈ Ia ∨ x ∈ Ba → x ∈ Iq ∨ x ∈ Bq → x ∈ Ba ∧ x ∈ Bq)
    (hi : ∀ x, x ∈ Ia → x ∈ Ib) (hb : ∀ x, x ∈ Ba → x ∈ Ib ∨ x ∈ Bb)
    (oi : ∀ x, x ∈ Is → x ∈ Ij) (ob : ∀ x, x ∈ Bs → x ∈ Ij ∨ x ∈ Bj)
    (meet : ∃ x, (x ∈ Ba ∨ x ∈ Bj) ∧ (x ∈ Bb ∨ x ∈ Bs ∨ x ∈ Bq))
    (conn : ∃ z, (z ∈ Ba ∨ z ∈ Bj) ∧ z ∈ Ib ∧ z ∈ Es ∧ z ∈ Eq) :
    CompoundRel (Ia ∩ Ej) (Ba ∪ Bj) (Ea ∪ Ij) (Ib ∩ (Es ∩ Eq)) (Bb ∪ (Bs ∪ Bq)) (Eb ∪ (Is ∪ Iq))
      .enclosed := by
  obtain ⟨a1, a2, a3, a4⟩ := sb
  obtain ⟨⟨a1', a2', a3', a4'⟩, ⟨b1', b2', b3', b4'⟩, c1', c2'⟩ := t
  obtain ⟨s1, s2, s3, s4⟩ := ss
  obtain ⟨q1, q2, q3, q4⟩ := sq
  simp only [CompoundRel, Set.subset_def, Set.eq_empty_iff_forall_notMem, Set.Nonempty,
    Set.mem_inter_iff, Set.mem_union, Set.ext_iff]
  refine ⟨?_, ?_, ?_, ?_⟩ <;> grind

theorem inner_within (t : Holed Ia Ba Ea Ij Bj Ej) (sb : Split Ib Bb Eb)
    (ss : Split Is Bs Es) (sq : Split Iq Bq Eq)
    (qi : ∀ x, x ∈ Ia ∨ x ∈ Ba → ¬ (x ∈ Iq ∨ x ∈ Bq))
    (hb : ∀ x, x ∈ Ia ∨ x ∈ Ba → x ∈ Ib) (ob : ∀ x, x ∈ Is ∨ x ∈ Bs → x ∈ Ij) :
    CompoundRel (Ia ∩ Ej) (Ba ∪ Bj) (Ea ∪ Ij) (Ib ∩ (Es ∩ Eq)) (Bb ∪ (Bs ∪ Bq)) (Eb ∪ (Is ∪ Iq))
      .within := by
  obtain ⟨a1, a2, a3, a4⟩ := sb
  obtain ⟨⟨a1', a2', a3', a4'⟩, ⟨b1', b2', b3', b4'⟩, c1', c2'⟩ := t
  obtain ⟨s1, s2, s3, s4⟩ := ss
  obtain ⟨q1, q2, q3, q4⟩ := sq
  simp only [CompoundRel, Set.subset_def, Set.eq_empty_iff_forall_notMem, Set.Nonempty,
    Set.mem_inter_iff, Set.mem_union, Set.ext_iff]
  grind

/-- The relation of a polygon to one with a hole around the first polygon. -/
theorem hole_around (t : Holed Ia Ba Ea Ij Bj Ej) (g : Holed Ib Bb Eb Ih Bh Eh) {Id Bd Ed : Set (Point K)}
    (di : ∀ x, x ∈ Id → x ∈ Ih) (db : ∀ x, x ∈ Bd → x ∈ Bh) {r : Relation}
    (h : CompoundRel Id Bd Ed Ia Ba Ea r) (ne : ∃ x, x ∈ Ba) (sd : Split Id Bd Ed) :
    (match (generalizing := false) r with
      | .cover => CompoundRel (Ia ∩ Ej) (Ba ∪ Bj) (Ea ∪ Ij) (Ib ∩ Eh) (Bb ∪ Bh) (Eb ∪ Ih) .disjoint
      | .encloses | .composite | .equal =>
        CompoundRel (Ia ∩ Ej) (Ba ∪ Bj) (Ea ∪ Ij) (Ib ∩ Eh) (Bb ∪ Bh) (Eb ∪ Ih) .touch
      | _ => True) := by
  obtain ⟨⟨a1, a2, a3, a4⟩, ⟨b1, b2, b3, b4⟩, c1, c2⟩ := g
  obtain ⟨⟨a1', a2', a3', a4'⟩, ⟨b1', b2', b3', b4'⟩, c1', c2'⟩ := t
  obtain ⟨d1, d2, d3, d4⟩ := sd
  obtain ⟨n2, h2⟩ := ne
  cases r <;>
    simp only [CompoundRel, Set.subset_def, Set.eq_empty_iff_forall_notMem, Set.Nonempty,
      Set.mem_inter_iff, Set.mem_union, Set.ext_iff] at h ⊢ <;>
    grind

end

/-- The relation of a multiregion to a polygon: the regions are divided into those inside of the border,
which are related to the holes, and those outside of it. -/
theorem multiregion_table {Is Bs Es Iq Bq Eq : Set (Point K)} (g : Holed Ib Bb Eb Ih Bh Eh)
    (ss : Split Is Bs Es) (sq : Split Iq Bq Eq)
    (qi : ∀ x, x ∈ Ib ∨ x ∈ Bb → x ∈ Iq ∨ x ∈ Bq → x ∈ Bb ∧ x ∈ Bq)
    (si : ∀ x, x ∈ Is → x ∈ Ib) (sb : ∀ x, x ∈ Bs → x ∈ Ib ∨ x ∈ Bb) {noneTouch : Bool}
    (touch : if noneTouch then ∀ x, x ∈ Bs ∨ x ∈ Bq → x ∉ Bb else ∃ x, (x ∈ Bs ∨ x ∈ Bq) ∧ x ∈ Bb)
    {r : Relation} (h : CompoundRel Is Bs Es Ih Bh Eh r) (ne : (∃ x, x ∈ Is) ∧ ∃ x, x ∈ Bs)
    (nh : (∃ x, x ∈ Ih) ∧ ∃ x, x ∈ Bh) {all : Bool} (none : all = true → (∀ x, x ∉ Iq) ∧ ∀ x, x ∉ Bq)
    (some : all = false → ∃ x, x ∈ Iq)
    (near : ∀ z, z ∈ Bh → z ∈ Is → ∃ y, (y ∈ Ib ∧ y ∈ Eh) ∧ y ∈ Is)
    (conn : ∀ y, y ∈ Ib → y ∈ Eh → y ∈ Is → (∃ z, z ∈ Bs ∧ z ∈ Ib ∧ z ∈ Eh) ∧
      ∃ z, (z ∈ Es ∧ z ∈ Eq) ∧ z ∈ Ib ∧ z ∈ Eh) :
    CompoundRel (Is ∪ Iq) (Bs ∪ Bq) (Es ∩ Eq) (Ib ∩ Eh) (Bb ∪ Bh) (Eb ∪ Ih)
      (match (generalizing := false) r with
        | .disjoint => if all then (if noneTouch then .within else .enclosed) else .overlap
        | .touch => if all then .enclosed else .overlap
        | .overlap => .overlap
        | .cover | .encloses | .composite => .overlap
        | .within => if noneTouch then .disjoint else .touch
        | _ => .touch) := by
  obtain ⟨⟨a1, a2, a3, a4⟩, ⟨b1, b2, b3, b4⟩, c1, c2⟩ := g
  obtain ⟨s1, s2, s3, s4⟩ := ss
  obtain ⟨q1, q2, q3, q4⟩ := sq
  obtain ⟨⟨n1, h1⟩, n2, h2⟩ := ne
  obtain ⟨⟨n3, h3⟩, n4, h4⟩ := nh
  cases r <;> cases noneTouch <;> cases all <;>
    simp only [CompoundRel, Set.subset_def, Set.eq_empty_iff_forall_notMem, Set.Nonempty,
      Set.mem_inter_iff, Set.mem_union, Set.ext_iff, if_true, if_false, Bool.false_eq_true] at h touch ⊢ <;>
    grind

end Orient
