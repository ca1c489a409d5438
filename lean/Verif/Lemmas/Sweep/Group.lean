import Verif.Lemmas.Sweep.Run

/-! Which relations the events of a group get. -/

set_option linter.unusedSectionVars false

namespace Orient.eventsQueue

variable {K : Type} [Field K] [LinearOrder K] [IsStrictOrderedRing K]

open Segment State

/-- `CROSS` or `OVERLAP`. -/
def Big (r : SegmentsRelation) : Prop := r = .cross ∨ r = .overlap

/-- Relations are not lowered. -/
structure Up (s t : State K) : Prop where
  shape : SameShape s t
  some : ∀ i, (s.lefts i).relation ≠ .disjoint → (t.lefts i).relation ≠ .disjoint
  overlap : ∀ i, (s.lefts i).relation = .overlap → (t.lefts i).relation = .overlap
  big : ∀ i, Big (s.lefts i).relation → Big (t.lefts i).relation
  /-- the flags of the compound queue are kept -/
  other : ∀ i, (t.lefts i).otherInteriorToLeft = (s.lefts i).otherInteriorToLeft
  kind : ∀ i, (t.lefts i).overlapKind = (s.lefts i).overlapKind

theorem Up.refl (s : State K) : Up s s :=
  ⟨.refl s, fun _ => id, fun _ => id, fun _ => id, fun _ => rfl, fun _ => rfl⟩

theorem Up.trans {s t u : State K} (h : Up s t) (h' : Up t u) : Up s u :=
  ⟨sameShape_trans h.shape h'.shape, fun i hi => h'.some i (h.some i hi),
    fun i hi => h'.overlap i (h.overlap i hi), fun i hi => h'.big i (h.big i hi), fun i => (h'.other i).trans (h.other i),
    fun i => (h'.kind i).trans (h.kind i)⟩

theorem Up.leftOf {s t : State K} (h : Up s t) (e : Ev) : t.leftOf e = s.leftOf e :=
  SameShape.leftOf h.shape e

theorem Up.evFromTest {s t : State K} (h : Up s t) (e : Ev) : t.evFromTest e = s.evFromTest e := by
  unfold State.evFromTest
  rw [h.leftOf, h.shape.fromTest]

theorem evOriginalStart_shape {s t : State K} (h : SameShape s t) (e : Ev) :
    t.evOriginalStart e = s.evOriginalStart e := by
  cases e with
  | left i => exact h.originalStart i
  | right r => exact congrArg (fun f => (f r).originalStart) h.rights

/-- The event is not at an end of its segment. -/
def Amid (s : State K) (e : Ev) : Prop := s.evStart e ≠ s.evOriginalStart e

theorem Up.amid {s t : State K} (h : Up s t) (e : Ev) : Amid t e ↔ Amid s e := by
  unfold Amid; rw [SameShape.evStart h.shape, evOriginalStart_shape h.shape]

/-- The relation of the piece of an event tells that it meets the piece of another one. -/
structure Marked (s : State K) (e x : Ev) : Prop where
  some : (s.lefts (s.leftOf e)).relation ≠ .disjoint
  overlap : s.seg (s.leftOf e) = s.seg (s.leftOf x) → (s.lefts (s.leftOf e)).relation = .overlap
  big : Amid s e → Amid s x → Big (s.lefts (s.leftOf e)).relation

theorem Up.marked {s t : State K} (h : Up s t) {e x : Ev} (hm : Marked s e x) : Marked t e x := by
  refine ⟨?_, fun he => ?_, fun h1 h2 => ?_⟩
  · rw [h.leftOf]; exact h.some _ hm.some
  · rw [h.leftOf, h.leftOf, h.shape.seg, h.shape.seg] at he
    rw [h.leftOf]; exact h.overlap _ (hm.overlap he)
  · rw [h.leftOf]; exact h.big _ (hm.big ((h.amid e).mp h1) ((h.amid x).mp h2))

theorem SegmentsRelation.big_max (a b : SegmentsRelation) (h : Big a ∨ Big b) : Big (a.max b) := by
  unfold Big at *
  cases a <;> cases b <;> simp_all [SegmentsRelation.max, SegmentsRelation.toNat]

theorem SegmentsRelation.max_ne (a b : SegmentsRelation) (h : a ≠ .disjoint ∨ b ≠ .disjoint) :
    a.max b ≠ .disjoint := by
  cases a <;> cases b <;> simp_all [SegmentsRelation.max, SegmentsRelation.toNat]

theorem SegmentsRelation.overlap_max (a b : SegmentsRelation) (h : a = .overlap) :
    a.max b = .overlap := by
  subst h
  cases b <;> simp [SegmentsRelation.max, SegmentsRelation.toNat]

theorem raiseRelation_up (s : State K) (i : Nat) (r : SegmentsRelation) :
    Up s (s.raiseRelation i r) := by
  refine ⟨sameShape_setLeft s i (fun e => { e with relation := e.relation.max r })
    fun e => ⟨rfl, rfl, rfl, rfl, rfl⟩, fun j hj => ?_, fun j hj => ?_, fun j hj => ?_, fun j => ?_,
    fun j => ?_⟩
  · simp only [raiseRelation, setLeft]
    split
    · exact SegmentsRelation.max_ne _ _ (.inl hj)
    · exact hj
  · simp only [raiseRelation, setLeft]
    split
    · exact SegmentsRelation.overlap_max _ _ hj
    · exact hj
  · simp only [raiseRelation, setLeft]
    split
    · exact SegmentsRelation.big_max _ _ (.inl hj)
    · exact hj
  · simp only [raiseRelation, setLeft]; split <;> rfl
  · simp only [raiseRelation, setLeft]; split <;> rfl

theorem setOverlap_up (s : State K) (i : Nat) : Up s (s.setRelation i .overlap) := by
  refine ⟨sameShape_setLeft s i (fun e => { e with relation := .overlap })
    fun e => ⟨rfl, rfl, rfl, rfl, rfl⟩, fun j hj => ?_, fun j hj => ?_, fun j hj => ?_, fun j => ?_,
    fun j => ?_⟩
  · simp only [setRelation, setLeft]
    split
    · simp
    · exact hj
  · simp only [setRelation, setLeft]
    split
    · rfl
    · exact hj
  · simp only [setRelation, setLeft]
    split
    · exact .inr rfl
    · exact hj
  · simp only [setRelation, setLeft]; split <;> rfl
  · simp only [setRelation, setLeft]; split <;> rfl

theorem raiseBoth_up {s : State K} (e x : Ev) {r : SegmentsRelation} (hne : r ≠ .disjoint)
    (h : ¬ ((s.lefts (s.leftOf e)).start = (s.lefts (s.leftOf x)).start ∧
      s.leftEnd (s.leftOf e) = s.leftEnd (s.leftOf x)))
    (hb : Amid s e → Amid s x → r = .cross) {p : Prop} :
    Up s ((s.raiseRelation (s.leftOf e) r).raiseRelation (s.leftOf x) r) ∧ (p →
      Marked ((s.raiseRelation (s.leftOf e) r).raiseRelation (s.leftOf x) r) e x ∧
      Marked ((s.raiseRelation (s.leftOf e) r).raiseRelation (s.leftOf x) r) x e) := by
  have u := (raiseRelation_up s (s.leftOf e) r).trans (raiseRelation_up _ (s.leftOf x) r)
  have no : s.seg (s.leftOf e) ≠ s.seg (s.leftOf x) := fun e =>
    h ⟨congrArg Segment.start e, congrArg Segment.finish e⟩
  refine ⟨u, fun _ => ⟨⟨?_, fun he => ?_, fun h1 h2 => ?_⟩, ⟨?_, fun he => ?_, fun h1 h2 => ?_⟩⟩⟩
  · rw [u.leftOf]
    refine (raiseRelation_up _ _ _).some _ ?_
    simp only [raiseRelation, setLeft, if_pos]
    exact SegmentsRelation.max_ne _ _ (.inr hne)
  · rw [u.leftOf, u.leftOf, u.shape.seg, u.shape.seg] at he; exact absurd he no
  · rw [u.leftOf]
    refine (raiseRelation_up _ _ _).big _ ?_
    simp only [raiseRelation, setLeft, if_pos]
    exact SegmentsRelation.big_max _ _ (.inr (.inl (hb ((u.amid e).mp h1) ((u.amid x).mp h2))))
  · rw [u.leftOf]
    simp only [raiseRelation, setLeft, if_pos]
    exact SegmentsRelation.max_ne _ _ (.inr hne)
  · rw [u.leftOf, u.leftOf, u.shape.seg, u.shape.seg] at he; exact absurd he.symm no
  · rw [u.leftOf]
    simp only [raiseRelation, setLeft, if_pos]
    exact SegmentsRelation.big_max _ _ (.inr (.inl (hb ((u.amid e).mp h2) ((u.amid x).mp h1))))

theorem completePair_up (s : State K) (e e' : Ev) :
    Up s (completePair s e e') ∧ (s.evFromTest e' ≠ s.evFromTest e →
      Marked (completePair s e e') e e' ∧ Marked (completePair s e e') e' e) := by
  unfold completePair
  simp only
  split_ifs with h1 h2 h3
  · exact ⟨.refl s, fun h => absurd h1 h⟩
  · have u := (setOverlap_up s (s.leftOf e)).trans (setOverlap_up _ (s.leftOf e'))
    have o1 : (((s.setRelation (s.leftOf e) .overlap).setRelation (s.leftOf e') .overlap).lefts
        (s.leftOf e)).relation = .overlap := by
      refine (setOverlap_up _ _).overlap _ ?_
      simp [setRelation, setLeft]
    have o2 : (((s.setRelation (s.leftOf e) .overlap).setRelation (s.leftOf e') .overlap).lefts
        (s.leftOf e')).relation = .overlap := by
      simp [setRelation, setLeft]
    have l1 := u.leftOf e
    have l2 := u.leftOf e'
    refine ⟨u, fun _ => ⟨⟨?_, fun _ => by rw [l1, o1], fun _ _ => .inr (by rw [l1, o1])⟩,
      ⟨?_, fun _ => by rw [l2, o2], fun _ _ => .inr (by rw [l2, o2])⟩⟩⟩
    · rw [l1, o1]; simp
    · rw [l2, o2]; simp
  · refine raiseBoth_up _ _ (by simp) h2 fun a1 a2 => ?_
    rcases h3 with h3 | h3
    · exact absurd h3 a1
    · exact absurd h3 a2
  · exact raiseBoth_up _ _ (by simp) h2 fun _ _ => rfl

theorem foldl_completePair_up (s : State K) (e : Ev) (l : List Ev) :
    Up s (l.foldl (fun s second => completePair s e second) s) ∧
    ∀ x ∈ l, s.evFromTest x ≠ s.evFromTest e →
      Marked (l.foldl (fun s second => completePair s e second) s) e x ∧
      Marked (l.foldl (fun s second => completePair s e second) s) x e := by
  induction l generalizing s with
  | nil => exact ⟨.refl s, by simp⟩
  | cons y l ih =>
    simp only [List.foldl_cons]
    obtain ⟨u1, m1⟩ := completePair_up s e y
    obtain ⟨u2, m2⟩ := ih (completePair s e y)
    refine ⟨u1.trans u2, fun x hx hne => ?_⟩
    rcases List.mem_cons.mp hx with rfl | hx
    · exact ⟨u2.marked (m1 hne).1, u2.marked (m1 hne).2⟩
    · exact m2 x hx (by rw [u1.evFromTest, u1.evFromTest]; exact hne)

/-- What is emitted for an event of the group. -/
def Completed (s s' : State K) (group : List Ev) (e : Ev) (em : Emitted K) : Prop :=
  ∃ t, Up s t ∧ Up t s' ∧ em = emit t (s.leftOf e) ∧
    ∀ x ∈ group, s.evFromTest x ≠ s.evFromTest e → Marked t e x

theorem completeEventsRelations_up (s : State K) (group : List Ev) :
    Up s (completeEventsRelations s group).2 ∧
    (∀ em ∈ (completeEventsRelations s group).1, ∃ e ∈ group,
      Completed s (completeEventsRelations s group).2 group e em) ∧
    (∀ e ∈ group, ∃ em ∈ (completeEventsRelations s group).1,
      Completed s (completeEventsRelations s group).2 group e em) := by
  induction group generalizing s with
  | nil => exact ⟨.refl s, by simp [completeEventsRelations], by simp⟩
  | cons e group ih =>
    obtain ⟨u, m⟩ := foldl_completePair_up s e group
    simp only [completeEventsRelations]
    set t := group.foldl (fun s second => completePair s e second) s
    obtain ⟨i1, i2, i3⟩ := ih t
    have first : Completed s (completeEventsRelations t group).2 (e :: group) e (emit t (t.leftOf e)) := by
      refine ⟨t, u, i1, by rw [u.leftOf], fun x hx hne => ?_⟩
      rcases List.mem_cons.mp hx with rfl | hx
      · exact absurd rfl hne
      · exact (m x hx hne).1
    have rest : ∀ x ∈ group, ∀ em, Completed t (completeEventsRelations t group).2 group x em →
        Completed s (completeEventsRelations t group).2 (e :: group) x em := by
      rintro x hx em ⟨v, v1, v2, rfl, v3⟩
      refine ⟨v, u.trans v1, v2, by rw [u.leftOf], fun y hy hne => ?_⟩
      rcases List.mem_cons.mp hy with rfl | hy
      · exact v1.marked (m x hx hne.symm).2
      · exact v3 y hy (by rw [u.evFromTest, u.evFromTest]; exact hne)
    refine ⟨u.trans i1, fun em hem => ?_, fun x hx => ?_⟩
    · rcases List.mem_cons.mp hem with rfl | hem
      · exact ⟨e, List.mem_cons_self .., first⟩
      · obtain ⟨x, hx, h⟩ := i2 em hem
        exact ⟨x, List.mem_cons_of_mem _ hx, rest x hx em h⟩
    · rcases List.mem_cons.mp hx with rfl | hx
      · exact ⟨_, List.mem_cons_self .., first⟩
      · obtain ⟨em, hem, h⟩ := i3 x hx
        exact ⟨em, List.mem_cons_of_mem _ hem, rest x hx em h⟩

theorem foldl_raise_up (s : State K) (l : List Ev) (r : SegmentsRelation) :
    Up s (l.foldl (fun s event => s.raiseRelation (s.leftOf event) r) s) := by
  induction l generalizing s with
  | nil => exact .refl s
  | cons e l ih => exact (raiseRelation_up s _ r).trans (ih _)

theorem detectCrossingAngles_up (context : Context K) (s : State K) (group : List Ev) :
    Up s (detectCrossingAngles context s group) := by
  unfold detectCrossingAngles
  simp only
  split
  · exact .refl s
  · split
    · split
      · exact .refl s
      · exact foldl_raise_up s _ _
    · exact .refl s

/-- A group is closed. -/
theorem closeGroup_up (linear : Bool) (context : Context K) (s : State K) (group : List Ev) :
    Up s (closeGroup linear context s group).2 ∧
    (∀ em ∈ (closeGroup linear context s group).1, ∃ e ∈ group,
      Completed s (closeGroup linear context s group).2 group e em) ∧
    (∀ e ∈ group, ∃ em ∈ (closeGroup linear context s group).1,
      Completed s (closeGroup linear context s group).2 group e em) := by
  unfold closeGroup
  have u : Up s (if linear = true then detectCrossingAngles context s group else s) := by
    split
    · exact detectCrossingAngles_up context s group
    · exact .refl s
  set t := if linear = true then detectCrossingAngles context s group else s
  obtain ⟨i1, i2, i3⟩ := completeEventsRelations_up t group
  have key : ∀ x em, Completed t (completeEventsRelations t group).2 group x em →
      Completed s (completeEventsRelations t group).2 group x em := by
    rintro x em ⟨v, v1, v2, rfl, v3⟩
    refine ⟨v, u.trans v1, v2, by rw [u.leftOf], fun y hy hne => ?_⟩
    exact v3 y hy (by rw [u.evFromTest, u.evFromTest]; exact hne)
  exact ⟨u.trans i1, fun em hem => (i2 em hem).imp fun e he => ⟨he.1, key _ _ he.2⟩,
    fun e he => (i3 e he).imp fun em hem => ⟨hem.1, key _ _ hem.2⟩⟩

end Orient.eventsQueue
