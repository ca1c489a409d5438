import Verif.Lemmas.Sweep.Register
import Verif.Lemmas.Orientation
import Verif.Lemmas.Germ
import Verif.Spec.Boundary
import Verif.Model.Planar

/-! How the computations that sweep end: with an answer, or with `ValueError` for an operand that
overlaps itself. -/

set_option linter.unusedSectionVars false

namespace Orient

open eventsQueue processing

/-- The computation answers, or raises `ValueError` in case of `P`. -/
def Settles {α : Type} (P : Prop) (x : Py α) : Prop :=
  ∀ e, x = .error e → e = .valueError ∧ P

theorem Settles.ok {α : Type} {P : Prop} (a : α) : Settles P (.ok a : Py α) := by
  rintro e ⟨⟩

theorem Settles.pure {α : Type} {P : Prop} (a : α) : Settles P (Pure.pure a : Py α) := Settles.ok a

theorem Settles.bind {α β : Type} {P : Prop} {x : Py α} {f : α → Py β} (h : Settles P x)
    (h' : ∀ a, x = .ok a → Settles P (f a)) : Settles P (x >>= f) := by
  intro e he
  cases x with
  | error e' =>
    have : e' = e := by
      have : (Except.error e' : Py β) = .error e := he
      exact Except.error.inj this
    exact h e (by rw [this])
  | ok a => exact h' a rfl e he

theorem Settles.mono {α : Type} {P Q : Prop} {x : Py α} (h : Settles P x) (hpq : P → Q) :
    Settles Q x := fun e he => ⟨(h e he).1, hpq (h e he).2⟩

theorem Settles.ite {α : Type} {P : Prop} {c : Prop} [Decidable c] {x y : Py α}
    (hx : c → Settles P x) (hy : ¬ c → Settles P y) : Settles P (if c then x else y) := by
  split_ifs with h
  · exact hx h
  · exact hy h

theorem Settles.exists_ok {α : Type} {P : Prop} {x : Py α} (h : Settles P x) (hP : ¬ P) :
    ∃ a, x = .ok a := by
  cases x with
  | error e => exact absurd (h e rfl).2 hP
  | ok a => exact ⟨a, rfl⟩

theorem Settles.ne_outOfFuel {α : Type} {P : Prop} {x : Py α} (h : Settles P x) :
    x ≠ .error .outOfFuel := by
  intro he
  have := (h _ he).1
  cases this

theorem pyGet_ok {α : Type} {l : List α} {i : Int} (h1 : -(l.length : Int) ≤ i)
    (h2 : i < l.length) : ∃ a, pyGet l i = .ok a := by
  unfold pyGet
  have h3 : (if i < 0 then i + (l.length : Int) else i).toNat < l.length := by split <;> omega
  rw [List.getElem?_eq_getElem h3]
  simp only
  rw [if_neg (by split <;> omega)]
  exact ⟨_, rfl⟩

section contour

variable {K : Type} [LinearOrder K]

theorem contour.orientation_ok {c : Contour K} (h : c.vertices ≠ []) (context : Context K) :
    ∃ o, contour.orientation c context = .ok o := by
  unfold contour.orientation
  cases hv : c.vertices with
  | nil => exact absurd hv h
  | cons v rest =>
    obtain ⟨m, hm, -⟩ := minIndex_spec rest [v] 0 v (by simp) (by simp)
    simp only [List.cons_append, List.nil_append, List.length_singleton] at hm
    have hlt : contour.minIndex rest 1 0 v < (v :: rest).length :=
      (List.getElem?_eq_some_iff.mp hm).1
    simp only
    generalize contour.minIndex rest 1 0 v = i at hlt
    have hlt' : (i : Int) < ((v :: rest).length : Int) := by exact_mod_cast hlt
    obtain ⟨a, ha⟩ := pyGet_ok (l := v :: rest) (i := (i : Int) - 1) (by omega) (by omega)
    obtain ⟨b, hb⟩ := pyGet_ok (l := v :: rest) (i := (i : Int)) (by omega) (by omega)
    have hpos : (0 : Int) < ((v :: rest).length : Int) := by omega
    obtain ⟨d, hd⟩ := pyGet_ok (l := v :: rest) (i := ((i : Int) + 1) % ((v :: rest).length : Int))
      (by have := Int.emod_nonneg ((i : Int) + 1) hpos.ne'; omega) (Int.emod_lt_of_pos _ hpos)
    rw [ha, hb, hd]
    exact ⟨_, rfl⟩

theorem contour.toOriented_ok {c : Contour K} (h : c.vertices ≠ []) (context : Context K)
    (clockwise : Bool) : ∃ l, contour.toOrientedEdgesEndpoints c context clockwise = .ok l := by
  obtain ⟨o, ho⟩ := contour.orientation_ok h context
  unfold contour.toOrientedEdgesEndpoints
  rw [ho]
  exact ⟨_, rfl⟩

theorem contour.equal_ok {c d : Contour K} (hc : c.vertices ≠ []) (hd : d.vertices ≠ [])
    (context : Context K) : ∃ b, contour.equal c d context = .ok b := by
  obtain ⟨o, ho⟩ := contour.orientation_ok hc context
  obtain ⟨o', ho'⟩ := contour.orientation_ok hd context
  have hpos := List.length_pos_of_ne_nil hc
  obtain ⟨a, ha⟩ := pyGet_ok (l := c.vertices) (i := 0) (by omega) (by omega)
  unfold contour.equal
  split_ifs
  · exact ⟨_, rfl⟩
  · rw [ha]
    simp only [bind, Except.bind]
    cases d.vertices.findIdx? (fun v => decide (v = a)) with
    | none => exact ⟨_, rfl⟩
    | some index =>
      simp only [ho, ho']
      exact ⟨_, rfl⟩

end contour

variable {K : Type} [Field K] [LinearOrder K] [IsStrictOrderedRing K]

theorem not_apart {l : List (Segment K)} (h : ¬ Apart l) : SelfOverlap l := by
  unfold Apart at h
  rw [List.pairwise_iff_getElem] at h
  push Not at h
  obtain ⟨i, j, hi, hj, hij, hn⟩ := h
  refine ⟨i, j, hi, hj, hij.ne, ?_⟩
  have := (sharesPiece_iff (s := l[i]) (l := [l[j]])).mpr ⟨l[j], by simp, hn⟩
  obtain ⟨u, hu, h1, h2⟩ := this
  refine ⟨u, hu, h1, fun x hx => ?_⟩
  obtain ⟨t, ht, hx'⟩ := h2 hx
  rw [List.mem_singleton] at ht
  exact ht ▸ hx'

/-! ### the endpoints that are registered -/

theorem Contour.Drawn.oriented {c : Contour K} (h : c.Drawn) (context : Context K)
    (clockwise : Bool) : ∃ l, region.toOrientedSegments c context clockwise = .ok l ∧
      Matches l c.edgeList := by
  obtain ⟨l, hl⟩ := contour.toOriented_ok h.1 context clockwise
  exact ⟨l, hl, matches_oriented hl⟩

theorem Multiregion.Drawn.oriented {m : Multiregion K} (h : Multiregion.Drawn m)
    (context : Context K) (clockwise : Bool) :
    ∃ l, multiregion.toOrientedEdgesEndpoints m context clockwise = .ok l ∧
      Matches l (Multiregion.edgeList m) := by
  induction m with
  | nil => exact ⟨[], rfl, List.Perm.refl _⟩
  | cons c m ih =>
    obtain ⟨l, hl, hm⟩ := Contour.Drawn.oriented (h c List.mem_cons_self) context clockwise
    obtain ⟨l', hl', hm'⟩ := ih fun d hd => h d (List.mem_cons_of_mem _ hd)
    refine ⟨l ++ l', ?_, hm.append hm'⟩
    unfold multiregion.toOrientedEdgesEndpoints
    rw [hl, hl']
    rfl

theorem Polygon.Drawn.oriented {g : Polygon K} (h : g.Drawn) (context : Context K)
    (clockwise : Bool) : ∃ l, polygon.toOrientedEdgesEndpoints g context clockwise = .ok l ∧
      Matches l g.edgeList := by
  obtain ⟨l, hl, hm⟩ := h.1.oriented context clockwise
  obtain ⟨l', hl', hm'⟩ := Multiregion.Drawn.oriented h.2 context (!clockwise)
  refine ⟨l ++ l', ?_, hm.append hm'⟩
  unfold polygon.toOrientedEdgesEndpoints
  rw [hl, hl']
  rfl

theorem Multipolygon.Drawn.oriented {m : Multipolygon K} (h : m.Drawn)
    (context : Context K) (clockwise : Bool) :
    ∃ l, multipolygon.toOrientedSegments m context clockwise = .ok l ∧
      Matches l m.edgeList := by
  obtain ⟨gs⟩ := m
  unfold multipolygon.toOrientedSegments Multipolygon.edgeList
  simp only
  replace h : ∀ g ∈ gs, g.Drawn := h
  induction gs with
  | nil => exact ⟨[], rfl, List.Perm.refl _⟩
  | cons g gs ih =>
    obtain ⟨l, hl, hm⟩ := (h g List.mem_cons_self).oriented context clockwise
    obtain ⟨l', hl', hm'⟩ := ih fun d hd => h d (List.mem_cons_of_mem _ hd)
    refine ⟨l ++ l', ?_, hm.append hm'⟩
    unfold multipolygon.orientedSegmentsOf
    rw [hl, hl']
    rfl

theorem Multiregion.Drawn.nondegenerate {m : Multiregion K} (h : Multiregion.Drawn m) :
    ∀ e ∈ Multiregion.edgeList m, e.Nondegenerate := by
  intro e he
  obtain ⟨c, hc, he⟩ := List.mem_flatMap.mp he
  exact (h c hc).2 e he

theorem Polygon.Drawn.nondegenerate {g : Polygon K} (h : g.Drawn) :
    ∀ e ∈ g.edgeList, e.Nondegenerate := by
  intro e he
  rcases List.mem_append.mp he with he | he
  · exact h.1.2 e he
  · exact h.2.nondegenerate e he

theorem Multipolygon.Drawn.nondegenerate {m : Multipolygon K} (h : m.Drawn) :
    ∀ e ∈ m.edgeList, e.Nondegenerate := by
  intro e he
  obtain ⟨c, hc, he⟩ := List.mem_flatMap.mp he
  exact (h c hc).nondegenerate e he

section parts

variable {α : Type} (boxOf : α → Box K) (E : α → List (Segment K)) (T : List (Segment K))

/-- The accumulator of `registerParts` after the parts `done`. -/
def PartsOK (done : List α) : Option (K × State K) → Prop
  | none => done = []
  | some (m, s) => Registered s (done.flatMap E) T ∧ (∃ p ∈ done, (boxOf p).maxX = m) ∧
      ∀ p ∈ done, (boxOf p).maxX ≤ m

/-- The parts that are not skipped. -/
def kept (testBox : Box K) (parts : List α) : List α :=
  parts.filter (fun p => !box.disjointWith testBox (boxOf p))

theorem registerParts_spec {segmentsOf : α → Py (List (SegmentEndpoints K))} {testBox : Box K}
    {test : List (SegmentEndpoints K)} (ht : Matches test T) (hT : ∀ u ∈ T, u.Nondegenerate)
    (parts : List α)
    (hp : ∀ p ∈ parts, (∃ l, segmentsOf p = .ok l ∧ Matches l (E p)) ∧ ∀ u ∈ E p, u.Nondegenerate)
    (nd : Bool) (done : List α) (acc : Option (K × State K)) (h : PartsOK boxOf E T done acc) :
    ∃ acc', registerParts boxOf segmentsOf testBox (.ok test) parts nd acc
        = .ok (nd && parts.all (fun p => !box.disjointWith testBox (boxOf p)), acc') ∧
      PartsOK boxOf E T (done ++ kept boxOf testBox parts) acc' := by
  induction parts generalizing nd done acc with
  | nil => exact ⟨acc, by simp [registerParts], by simpa [kept] using h⟩
  | cons p parts ih =>
    have ih := ih fun q hq => hp q (List.mem_cons_of_mem _ hq)
    obtain ⟨⟨l, hl, hm⟩, hE⟩ := hp p List.mem_cons_self
    unfold registerParts
    cases hd : box.disjointWith testBox (boxOf p) with
    | true =>
      simp only [if_true]
      obtain ⟨acc', h1, h2⟩ := ih false done acc h
      refine ⟨acc', ?_, ?_⟩
      · rw [h1]; simp [hd]
      · simpa [kept, hd] using h2
    | false =>
      have e1 : kept boxOf testBox (p :: parts) = p :: kept boxOf testBox parts := by
        simp [kept, hd]
      simp only [Bool.false_eq_true, if_false]
      cases acc with
      | none =>
        have hdone : done = [] := h
        subst hdone
        obtain ⟨acc', h1, h2⟩ := ih nd [p]
          (some ((boxOf p).maxX, (State.empty.register true test).register false l)) (by
            refine ⟨?_, ⟨p, by simp, rfl⟩, by simp⟩
            have := (Registered.empty.addTest ht hT).addGoal hm hE
            simpa using this)
        refine ⟨acc', ?_, ?_⟩
        · rw [hl]
          simp only [bind, Except.bind]
          rw [h1]
          simp [hd]
        · rw [e1]; exact h2
      | some ms =>
        obtain ⟨m, s⟩ := ms
        obtain ⟨hr, ⟨q, hq, hqm⟩, hmax⟩ := h
        obtain ⟨acc', h1, h2⟩ := ih nd (done ++ [p])
          (some (max m (boxOf p).maxX, s.register false l)) (by
            refine ⟨?_, ?_, ?_⟩
            · have := hr.addGoal hm hE
              simpa using this
            · rcases le_total m (boxOf p).maxX with h | h
              · exact ⟨p, by simp, (max_eq_right h).symm⟩
              · exact ⟨q, by simp [hq], by rw [hqm, max_eq_left h]⟩
            · intro q' hq'
              rcases List.mem_append.mp hq' with hq' | hq'
              · exact (hmax q' hq').trans (le_max_left _ _)
              · rw [List.mem_singleton] at hq'
                exact hq' ▸ le_max_right _ _)
        refine ⟨acc', ?_, ?_⟩
        · rw [hl]
          simp only [bind, Except.bind]
          rw [h1]
          simp [hd]
        · rw [e1, List.append_cons]
          exact h2

end parts

/-! ### the sweeps -/

/-- One of the operands overlaps itself. -/
def Tangled (G T : List (Segment K)) : Prop := ¬ Apart G ∨ ¬ Apart T

theorem Tangled.mono {G T G' T' : List (Segment K)} (h : Tangled G T) (hG : G.Sublist G')
    (hT : T.Sublist T') : Tangled G' T' := by
  rcases h with h | h
  · exact .inl fun h' => h (h'.sublist hG)
  · exact .inr fun h' => h (h'.sublist hT)

theorem Tangled.symm {G T : List (Segment K)} (h : Tangled G T) : Tangled T G := Or.symm h

theorem Tangled.selfOverlap {G T : List (Segment K)} (h : Tangled G T) :
    SelfOverlap G ∨ SelfOverlap T := h.imp not_apart not_apart

variable {context : Context K} (hc : context.Exact)

include hc

theorem sweep_settles (linear : Bool) {s : State K} {G T : List (Segment K)} (h : Registered s G T)
    (stopX : K) : Settles (Tangled G T) (sweep linear context stopX s).2 := by
  intro e he
  rcases sweep_ends linear hc stopX h.fresh.wf h.fresh.length with ⟨ems, d, -, -, -, h2⟩ | ⟨h1, h2⟩
  · rw [h2] at he; cases he
  · rw [h1] at he
    cases he
    exact ⟨rfl, h.clash.mp h2⟩

theorem runOpenLinear_settles {s : State K} {G T : List (Segment K)} (h : Registered s G T)
    (stopX : K) : Settles (Tangled G T) (runOpenLinear context s stopX) :=
  (sweep_settles hc true h stopX).bind fun _ _ => .pure _

theorem runClosedLinear_settles {s : State K} {G T : List (Segment K)} (h : Registered s G T)
    (stopX : K) : Settles (Tangled G T) (runClosedLinear context s stopX) :=
  (sweep_settles hc false h stopX).bind fun _ _ => .pure _

theorem runLinearCompound_settles {s : State K} {G T : List (Segment K)} (h : Registered s G T)
    (stopX : K) : Settles (Tangled G T) (runLinearCompound context s stopX) :=
  .ite (fun _ => .ok _) fun _ => (sweep_settles hc false h stopX).bind fun _ _ => .pure _

theorem runCompound_settles {s : State K} {G T : List (Segment K)} (h : Registered s G T)
    (stopX : K) : Settles (Tangled G T) (runCompound context s stopX) :=
  .ite (fun _ => .ok _) fun _ => (sweep_settles hc false h stopX).bind fun _ _ => .pure _

/-! ### the relations -/

omit hc in
theorem settles_ok {α : Type} {P : Prop} {x : Py α} (h : ∃ a, x = .ok a) : Settles P x := by
  obtain ⟨a, rfl⟩ := h
  exact .ok a

theorem multisegmentMultisegment_settles {g t : Multisegment K}
    (hg : ∀ u ∈ g.segments, u.Nondegenerate) (ht : ∀ u ∈ t.segments, u.Nondegenerate) :
    Settles (Tangled g.segments t.segments) (multisegment.relateMultisegment g t context) :=
  .ite (fun _ => .ok _) fun _ =>
    runOpenLinear_settles hc (registered (matches_segments g) (matches_segments t) hg ht) _

theorem contourMultisegment_settles {c : Contour K} {m : Multisegment K}
    (hg : ∀ u ∈ c.edgeList, u.Nondegenerate) (ht : ∀ u ∈ m.segments, u.Nondegenerate) :
    Settles (Tangled c.edgeList m.segments) (contour.relateMultisegment c m context) :=
  .ite (fun _ => .ok _) fun _ =>
    runOpenLinear_settles hc (registered (matches_edges c) (matches_segments m) hg ht) _

theorem contourContour_settles {c d : Contour K} (hg : c.Drawn) (ht : d.Drawn) :
    Settles (Tangled c.edgeList d.edgeList) (contour.relateContour c d context) := by
  unfold contour.relateContour
  refine .ite (fun _ => .pure _) fun _ => ?_
  refine (settles_ok (contour.equal_ok hg.1 ht.1 context)).bind fun b _ => ?_
  refine .ite (fun _ => .pure _) fun _ => ?_
  refine (settles_ok (contour.toOriented_ok hg.1 context false)).bind fun l hl => ?_
  refine (settles_ok (contour.toOriented_ok ht.1 context false)).bind fun l' hl' => ?_
  exact runClosedLinear_settles hc
    (registered (matches_oriented hl) (matches_oriented hl') hg.2 ht.2) _

theorem regionMultisegment_settles {c : Region K} {m : Multisegment K} (hg : Contour.Drawn c)
    (ht : ∀ u ∈ m.segments, u.Nondegenerate) :
    Settles (Tangled (Contour.edgeList c) m.segments) (region.relateMultisegment c m context) := by
  unfold region.relateMultisegment
  refine .ite (fun _ => .pure _) fun _ => ?_
  refine (settles_ok (contour.toOriented_ok hg.1 context false)).bind fun l hl => ?_
  exact runLinearCompound_settles hc
    (registered (matches_oriented hl) (matches_segments m) hg.2 ht) _

theorem regionContour_settles {c : Region K} {d : Contour K} (hg : Contour.Drawn c) (ht : d.Drawn)
    (b : Box K) : Settles (Tangled (Contour.edgeList c) d.edgeList)
      (region.relateContourBoxed c d b context) := by
  unfold region.relateContourBoxed
  refine .ite (fun _ => .pure _) fun _ => ?_
  refine (settles_ok (contour.equal_ok hg.1 ht.1 context)).bind fun b _ => ?_
  refine .ite (fun _ => .pure _) fun _ => ?_
  refine (settles_ok (contour.toOriented_ok hg.1 context false)).bind fun l hl => ?_
  exact runLinearCompound_settles hc
    (registered (matches_oriented hl) (matches_edges d) hg.2 ht.2) _

theorem regionRegion_settles {c d : Region K} (hg : Contour.Drawn c) (ht : Contour.Drawn d)
    (b b' : Box K) : Settles (Tangled (Contour.edgeList c) (Contour.edgeList d))
      (region.relateRegionBoxed c d b b' context) := by
  unfold region.relateRegionBoxed
  refine .ite (fun _ => .pure _) fun _ => ?_
  refine (settles_ok (contour.equal_ok hg.1 ht.1 context)).bind fun b _ => ?_
  refine .ite (fun _ => .pure _) fun _ => ?_
  refine (settles_ok (contour.toOriented_ok hg.1 context false)).bind fun l hl => ?_
  refine (settles_ok (contour.toOriented_ok ht.1 context false)).bind fun l' hl' => ?_
  exact runCompound_settles hc
    (registered (matches_oriented hl) (matches_oriented hl') hg.2 ht.2) _

omit hc in
/-- What follows `registerParts`. -/
theorem registerParts_settles {α β : Type} {boxOf : α → Box K} {E : α → List (Segment K)}
    {T : List (Segment K)} {segmentsOf : α → Py (List (SegmentEndpoints K))} {testBox : Box K}
    {test : Py (List (SegmentEndpoints K))} (ht : ∃ l, test = .ok l ∧ Matches l T)
    (hT : ∀ u ∈ T, u.Nondegenerate) {parts : List α}
    (hp : ∀ p ∈ parts, (∃ l, segmentsOf p = .ok l ∧ Matches l (E p)) ∧ ∀ u ∈ E p, u.Nondegenerate)
    {f : Bool × Option (K × State K) → Py β}
    (hnone : ∀ nd, Settles (Tangled (parts.flatMap E) T) (f (nd, none)))
    (hsome : ∀ nd m s, ∀ G : List (Segment K), G.Sublist (parts.flatMap E) → Registered s G T →
      Settles (Tangled G T) (f (nd, some (m, s)))) :
    Settles (Tangled (parts.flatMap E) T)
      (registerParts boxOf segmentsOf testBox test parts true none >>= f) := by
  obtain ⟨l, rfl, hl⟩ := ht
  obtain ⟨acc, h1, h2⟩ := registerParts_spec boxOf E T (testBox := testBox) hl hT parts hp true []
    none rfl
  rw [h1]
  refine Settles.bind (.ok _) fun a ha => ?_
  cases ha
  cases acc with
  | none => exact hnone _
  | some ms =>
    obtain ⟨m, s⟩ := ms
    have hsub : ((kept boxOf testBox parts).flatMap E).Sublist (parts.flatMap E) := by
      unfold kept
      have := (List.filter_sublist (l := parts)
        (p := fun p => !box.disjointWith testBox (boxOf p))).map E
      exact this.flatten
    rw [List.nil_append] at h2
    exact (hsome _ m s _ hsub h2.1).mono fun h => h.mono hsub (List.Sublist.refl _)

theorem multiregionMultisegment_settles {m : Multiregion K} {t : Multisegment K}
    (hg : Multiregion.Drawn m) (ht : ∀ u ∈ t.segments, u.Nondegenerate) (b : Box K) :
    Settles (Tangled (Multiregion.edgeList m) t.segments)
      (multiregion.relateMultisegmentBoxed m t b context) := by
  unfold multiregion.relateMultisegmentBoxed
  refine registerParts_settles ⟨_, rfl, matches_segments t⟩ ht
    (fun c h => ⟨(hg c h).oriented context false, (hg c h).2⟩) (fun _ => .pure _) ?_
  intro nd mx s G _ hr
  exact runLinearCompound_settles hc hr _

theorem multiregionContour_settles {m : Multiregion K} {t : Contour K}
    (hg : Multiregion.Drawn m) (ht : t.Drawn) (b : Box K) :
    Settles (Tangled (Multiregion.edgeList m) t.edgeList)
      (multiregion.relateContourBoxed m t b context) := by
  unfold multiregion.relateContourBoxed
  refine registerParts_settles ⟨_, rfl, matches_edges t⟩ ht.2
    (fun c h => ⟨(hg c h).oriented context false, (hg c h).2⟩) (fun _ => .pure _) ?_
  intro nd mx s G _ hr
  exact runLinearCompound_settles hc hr _

theorem multiregionRegion_settles {m : Multiregion K} {t : Region K}
    (hg : Multiregion.Drawn m) (ht : Contour.Drawn t) (b : Box K) :
    Settles (Tangled (Multiregion.edgeList m) (Contour.edgeList t))
      (multiregion.relateRegionBoxed m t b context) := by
  unfold multiregion.relateRegionBoxed
  refine registerParts_settles (ht.oriented context false) ht.2
    (fun c h => ⟨(hg c h).oriented context false, (hg c h).2⟩) (fun _ => .pure _) ?_
  intro nd mx s G _ hr
  exact (runCompound_settles hc hr _).bind fun _ _ => .pure _

theorem multiregionMultiregion_settles {g t : Multiregion K} (hg : Multiregion.Drawn g)
    (ht : Multiregion.Drawn t) :
    Settles (Tangled (Multiregion.edgeList g) (Multiregion.edgeList t))
      (multiregion.relateMultiregion g t context) := by
  unfold multiregion.relateMultiregion
  refine .ite (fun _ => .pure _) fun _ => ?_
  obtain ⟨l, hl, hm⟩ := hg.oriented context false
  obtain ⟨l', hl', hm'⟩ := ht.oriented context false
  rw [hl, hl']
  exact runCompound_settles hc (registered hm hm' hg.nondegenerate ht.nondegenerate) _

theorem polygonMultisegment_settles {g : Polygon K} {t : Multisegment K}
    (hg : g.Drawn) (ht : ∀ u ∈ t.segments, u.Nondegenerate) :
    Settles (Tangled g.edgeList t.segments) (polygon.relateMultisegment g t context) := by
  unfold polygon.relateMultisegment
  refine .ite (fun _ => .pure _) fun _ => ?_
  obtain ⟨l, hl, hm⟩ := hg.oriented context false
  rw [hl]
  exact runLinearCompound_settles hc (registered hm (matches_segments t) hg.nondegenerate ht) _

omit hc in
theorem border_sublist (g : Polygon K) : g.border.edgeList.Sublist g.edgeList :=
  List.sublist_append_left _ _

omit hc in
theorem holes_sublist (g : Polygon K) : (Multiregion.edgeList g.holes).Sublist g.edgeList :=
  List.sublist_append_right _ _

omit hc in
theorem member_sublist {m : Multiregion K} {c : Contour K} (h : c ∈ m) :
    c.edgeList.Sublist (Multiregion.edgeList m) := by
  unfold Multiregion.edgeList
  rw [List.flatMap_def]
  exact List.sublist_flatten_of_mem (List.mem_map_of_mem h)

omit hc in
theorem sub_sublist {m m' : Multiregion K} (h : List.Sublist m m') :
    (Multiregion.edgeList m).Sublist (Multiregion.edgeList m') := (h.map _).flatten

theorem polygonContour_settles {g : Polygon K} {t : Contour K} (hg : g.Drawn) (ht : t.Drawn) :
    Settles (Tangled g.edgeList t.edgeList) (polygon.relateContour g t context) := by
  unfold polygon.relateContour
  refine ((regionContour_settles hc hg.1 ht _).mono
    fun h => h.mono (border_sublist g) (.refl _)).bind fun r _ => ?_
  refine .ite (fun _ => ?_) fun _ => .pure _
  refine ((multiregionContour_settles hc hg.2 ht _).mono
    fun h => h.mono (holes_sublist g) (.refl _)).bind fun r' _ => ?_
  cases r' <;> exact .pure _

theorem polygonRegion_settles {g : Polygon K} {t : Region K} (hg : g.Drawn)
    (ht : Contour.Drawn t) :
    Settles (Tangled g.edgeList (Contour.edgeList t)) (polygon.relateRegion g t context) := by
  unfold polygon.relateRegion
  refine ((regionRegion_settles hc hg.1 ht _ _).mono
    fun h => h.mono (border_sublist g) (.refl _)).bind fun r _ => ?_
  have key : Settles (Tangled g.edgeList (Contour.edgeList t))
      (multiregion.relateRegionBoxed g.holes t (context.contourBox t) context) :=
    (multiregionRegion_settles hc hg.2 ht _).mono fun h => h.mono (holes_sublist g) (.refl _)
  cases r <;> first | exact .pure _ | (refine key.bind fun r' _ => ?_; exact .pure _)

theorem relateMultiregionLoop_settles {border : Contour K} (hb : border.Drawn) (b : Box K)
    {M : Multiregion K} (l : Multiregion K) (hl : Multiregion.Drawn l) (hs : List.Sublist l M) (nt : Bool)
    (subs : List (Region K)) :
    Settles (Tangled border.edgeList (Multiregion.edgeList M))
      (polygon.relateMultiregionLoop border b context l nt subs) ∧
    ∀ nt' subs', polygon.relateMultiregionLoop border b context l nt subs = .ok (.inr (nt', subs')) →
      ∃ l', subs' = subs ++ l' ∧ l'.Sublist l := by
  induction l generalizing nt subs with
  | nil =>
    refine ⟨.ok _, fun nt' subs' h => ?_⟩
    cases h
    exact ⟨[], by simp, List.Sublist.refl _⟩
  | cons c l ih =>
    have hl' : Multiregion.Drawn l := fun d hd => hl d (List.mem_cons_of_mem _ hd)
    have hs' : List.Sublist l M := (List.sublist_cons_self c l).trans hs
    have ih := fun nt subs => ih hl' hs' nt subs
    have hr := (regionRegion_settles hc hb (hl c List.mem_cons_self) b (context.contourBox c)).mono
      fun h => h.mono (G' := border.edgeList) (T' := Multiregion.edgeList M) (.refl _)
        (member_sublist (hs.subset List.mem_cons_self))
    unfold polygon.relateMultiregionLoop
    cases hrel : region.relateRegionBoxed border c b (context.contourBox c) context with
    | error e =>
      rw [hrel] at hr
      refine ⟨fun e' he' => hr e' ?_, fun _ _ h => by cases h⟩
      have h : (Except.error e : Py (Relation ⊕ (Bool × List (Region K)))) = .error e' := he'
      cases h
      rfl
    | ok r =>
      have skip : ∀ nt, Settles (Tangled border.edgeList (Multiregion.edgeList M))
          (polygon.relateMultiregionLoop border b context l nt subs) ∧
          ∀ nt' subs', polygon.relateMultiregionLoop border b context l nt subs
              = .ok (.inr (nt', subs')) → ∃ l', subs' = subs ++ l' ∧ l'.Sublist (c :: l) := by
        intro nt
        refine ⟨(ih nt subs).1, fun nt' subs' h => ?_⟩
        obtain ⟨l', h1, h2⟩ := (ih nt subs).2 nt' subs' h
        exact ⟨l', h1, h2.trans (List.sublist_cons_self c l)⟩
      have take : ∀ nt, Settles (Tangled border.edgeList (Multiregion.edgeList M))
          (polygon.relateMultiregionLoop border b context l nt (subs ++ [c])) ∧
          ∀ nt' subs', polygon.relateMultiregionLoop border b context l nt (subs ++ [c])
              = .ok (.inr (nt', subs')) → ∃ l', subs' = subs ++ l' ∧ l'.Sublist (c :: l) := by
        intro nt
        refine ⟨(ih nt _).1, fun nt' subs' h => ?_⟩
        obtain ⟨l', h1, h2⟩ := (ih nt _).2 nt' subs' h
        exact ⟨c :: l', by rw [h1]; simp, h2.cons_cons c⟩
      have stop : ∀ r : Relation, Settles (Tangled border.edgeList (Multiregion.edgeList M))
          (Pure.pure (Sum.inl r) : Py (Relation ⊕ (Bool × List (Region K)))) ∧
          ∀ nt' subs', (Pure.pure (Sum.inl r) : Py (Relation ⊕ (Bool × List (Region K))))
              = .ok (.inr (nt', subs')) → ∃ l', subs' = subs ++ l' ∧ l'.Sublist (c :: l) :=
        fun r => ⟨.pure _, fun _ _ h => by cases h⟩
      cases r
      case disjoint => exact skip nt
      case touch => exact skip false
      all_goals first
        | exact stop _
        | exact take _

theorem polygonMultiregion_settles {g : Polygon K} {t : Multiregion K} (hg : g.Drawn)
    (ht : Multiregion.Drawn t) :
    Settles (Tangled g.edgeList (Multiregion.edgeList t))
      (polygon.relateMultiregion g t context) := by
  unfold polygon.relateMultiregion
  refine .ite (fun _ => ?_) fun _ => ?_
  · refine ((multiregionRegion_settles hc ht hg.1 _).mono
      fun h => h.symm.mono (border_sublist g) (.refl _)).bind fun r _ => .pure _
  · obtain ⟨h1, h2⟩ := relateMultiregionLoop_settles hc hg.1 (context.contourBox g.border) t ht
      (.refl _) true []
    refine (h1.mono fun h => h.mono (border_sublist g) (.refl _)).bind fun r hr => ?_
    cases r with
    | inl r => exact .pure _
    | inr p =>
      obtain ⟨nt, subs⟩ := p
      obtain ⟨l', e, hl'⟩ := h2 nt subs hr
      rw [List.nil_append] at e
      subst e
      refine .ite (fun _ => ?_) fun _ => .pure _
      refine ((multiregionMultiregion_settles hc hg.2 fun c h => ht c (hl'.subset h)).mono
        fun h => h.mono (holes_sublist g) (sub_sublist hl')).bind fun r' _ => ?_
      cases r' <;> exact .pure _

theorem holesLoop_settles {border : Contour K} (hb : border.Drawn) (b : Box K)
    {M : Multiregion K} (l : Multiregion K) (hl : Multiregion.Drawn l) (hs : List.Sublist l M) (nt : Bool)
    (subs : List (Region K)) :
    Settles (Tangled border.edgeList (Multiregion.edgeList M))
      (polygon.holesLoop border b context l nt subs) ∧
    ∀ nt' subs', polygon.holesLoop border b context l nt subs = .ok (.inr (nt', subs')) →
      ∃ l', subs' = subs ++ l' ∧ l'.Sublist l := by
  induction l generalizing nt subs with
  | nil =>
    refine ⟨.ok _, fun nt' subs' h => ?_⟩
    cases h
    exact ⟨[], by simp, List.Sublist.refl _⟩
  | cons c l ih =>
    have hl' : Multiregion.Drawn l := fun d hd => hl d (List.mem_cons_of_mem _ hd)
    have hs' : List.Sublist l M := (List.sublist_cons_self c l).trans hs
    have ih := fun nt subs => ih hl' hs' nt subs
    have hr := (regionRegion_settles hc hb (hl c List.mem_cons_self) b (context.contourBox c)).mono
      fun h => h.mono (G' := border.edgeList) (T' := Multiregion.edgeList M) (.refl _)
        (member_sublist (hs.subset List.mem_cons_self))
    unfold polygon.holesLoop
    cases hrel : region.relateRegionBoxed border c b (context.contourBox c) context with
    | error e =>
      rw [hrel] at hr
      refine ⟨fun e' he' => hr e' ?_, fun _ _ h => by cases h⟩
      have h : (Except.error e : Py (Relation ⊕ (Bool × List (Region K)))) = .error e' := he'
      cases h
      rfl
    | ok r =>
      have skip : ∀ nt, Settles (Tangled border.edgeList (Multiregion.edgeList M))
          (polygon.holesLoop border b context l nt subs) ∧
          ∀ nt' subs', polygon.holesLoop border b context l nt subs
              = .ok (.inr (nt', subs')) → ∃ l', subs' = subs ++ l' ∧ l'.Sublist (c :: l) := by
        intro nt
        refine ⟨(ih nt subs).1, fun nt' subs' h => ?_⟩
        obtain ⟨l', h1, h2⟩ := (ih nt subs).2 nt' subs' h
        exact ⟨l', h1, h2.trans (List.sublist_cons_self c l)⟩
      have take : ∀ nt, Settles (Tangled border.edgeList (Multiregion.edgeList M))
          (polygon.holesLoop border b context l nt (subs ++ [c])) ∧
          ∀ nt' subs', polygon.holesLoop border b context l nt (subs ++ [c])
              = .ok (.inr (nt', subs')) → ∃ l', subs' = subs ++ l' ∧ l'.Sublist (c :: l) := by
        intro nt
        refine ⟨(ih nt _).1, fun nt' subs' h => ?_⟩
        obtain ⟨l', h1, h2⟩ := (ih nt _).2 nt' subs' h
        exact ⟨c :: l', by rw [h1]; simp, h2.cons_cons c⟩
      have stop : ∀ r : Relation, Settles (Tangled border.edgeList (Multiregion.edgeList M))
          (Pure.pure (Sum.inl r) : Py (Relation ⊕ (Bool × List (Region K)))) ∧
          ∀ nt' subs', (Pure.pure (Sum.inl r) : Py (Relation ⊕ (Bool × List (Region K))))
              = .ok (.inr (nt', subs')) → ∃ l', subs' = subs ++ l' ∧ l'.Sublist (c :: l) :=
        fun r => ⟨.pure _, fun _ _ h => by cases h⟩
      cases r
      case disjoint => exact skip nt
      case touch => exact skip false
      all_goals first
        | exact stop _
        | exact take _

theorem polygonPolygon_settles {g t : Polygon K} (hg : g.Drawn) (ht : t.Drawn) :
    Settles (Tangled g.edgeList t.edgeList) (polygon.relatePolygon g t context) := by
  unfold polygon.relatePolygon
  refine ((regionRegion_settles hc hg.1 ht.1 _ _).mono
    fun h => h.mono (border_sublist g) (border_sublist t)).bind fun r _ => ?_
  -- the holes of the bigger polygon against the border of the smaller one
  have key : ∀ {a b : Polygon K}, a.Drawn → b.Drawn → ∀ (box : Box K)
      (k : Relation ⊕ (Bool × List (Region K)) → Py Relation),
      (∀ r, Settles (Tangled a.edgeList b.edgeList) (k (.inl r))) →
      (∀ nt subs, Settles (Tangled a.edgeList b.edgeList)
        (multiregion.relateMultiregion b.holes subs context) →
        Settles (Tangled a.edgeList b.edgeList) (k (.inr (nt, subs)))) →
      Settles (Tangled a.edgeList b.edgeList)
        (polygon.holesLoop b.border box context a.holes true [] >>= k) := by
    intro a b ha hb box k hk1 hk2
    obtain ⟨h1, h2⟩ := holesLoop_settles hc hb.1 box a.holes ha.2 (.refl _) true []
    refine (h1.mono fun h => h.symm.mono (holes_sublist a) (border_sublist b)).bind fun r hr => ?_
    cases r with
    | inl r => exact hk1 r
    | inr p =>
      obtain ⟨nt, subs⟩ := p
      obtain ⟨l', e, hl'⟩ := h2 nt subs hr
      rw [List.nil_append] at e
      subst e
      refine hk2 _ _ ?_
      exact (multiregionMultiregion_settles hc hb.2 fun c h => ha.2 c (hl'.subset h)).mono
        fun h => h.symm.mono ((sub_sublist hl').trans (holes_sublist a)) (holes_sublist b)
  have within : ∀ r : Relation, Settles (Tangled g.edgeList t.edgeList)
      (if g.holes ≠ [] then do
        match ← polygon.holesLoop t.border (context.polygonBox t) context g.holes true [] with
        | .inl relation => return relation
        | .inr (noneTouch, subsets) =>
          if subsets ≠ [] then
            let holesRelation ← if t.holes ≠ []
              then multiregion.relateMultiregion t.holes subsets context
              else .ok .disjoint
            return match holesRelation with
              | .equal => if r = .within then .enclosed else r
              | .component | .enclosed => .enclosed
              | .within => r
              | _ => .overlap
          else return if noneTouch then r else .enclosed
      else
        return if t.holes ≠ [] ∧ r = .component then .enclosed else r) := by
    intro r
    refine .ite (fun _ => ?_) fun _ => .pure _
    refine key hg ht _ _ (fun _ => .pure _) fun nt subs h =>
      .ite (fun _ => .ite (fun _ => ?_) fun _ => ?_) fun _ => .pure _
    · exact h.bind fun _ _ => .pure _
    · exact (Settles.ok _).bind fun _ _ => .pure _
  have cover : ∀ r : Relation, Settles (Tangled g.edgeList t.edgeList)
      (if t.holes ≠ [] then do
        match ← polygon.holesLoop g.border (context.polygonBox g) context t.holes true [] with
        | .inl relation => return relation
        | .inr (noneTouch, subsets) =>
          if subsets ≠ [] then
            let holesRelation ← if g.holes ≠ []
              then multiregion.relateMultiregion g.holes subsets context
              else .ok .disjoint
            return match holesRelation with
              | .equal => if r = .cover then .encloses else r
              | .component | .enclosed => .encloses
              | .within => r
              | _ => .overlap
          else return if noneTouch then r else .encloses
      else
        return if g.holes ≠ [] ∧ r = .composite then .encloses else r) := by
    intro r
    refine .ite (fun _ => ?_) fun _ => .pure _
    refine (key ht hg _ _ (fun _ => .pure _) fun nt subs h =>
      .ite (fun _ => .ite (fun _ => ?_) fun _ => ?_) fun _ => .pure _).mono Tangled.symm
    · exact h.bind fun _ _ => .pure _
    · exact (Settles.ok _).bind fun _ _ => .pure _
  cases r
  case equal =>
    refine .ite (fun _ => ?_) fun _ => .pure _
    exact ((multiregionMultiregion_settles hc ht.2 hg.2).mono
      fun h => h.symm.mono (holes_sublist g) (holes_sublist t)).bind fun _ _ => .pure _
  all_goals first
    | exact .pure _
    | exact within _
    | exact cover _

theorem multipolygonMultisegment_settles {m : Multipolygon K} {t : Multisegment K}
    (hg : m.Drawn) (ht : ∀ u ∈ t.segments, u.Nondegenerate) :
    Settles (Tangled m.edgeList t.segments) (multipolygon.relateMultisegment m t context) := by
  unfold multipolygon.relateMultisegment
  refine registerParts_settles ⟨_, rfl, matches_segments t⟩ ht
    (fun c h => ⟨(hg c h).oriented context false, (hg c h).nondegenerate⟩) (fun _ => .pure _) ?_
  intro nd mx s G _ hr
  exact runLinearCompound_settles hc hr _

theorem multipolygonContour_settles {m : Multipolygon K} {t : Contour K}
    (hg : m.Drawn) (ht : t.Drawn) :
    Settles (Tangled m.edgeList t.edgeList) (multipolygon.relateContour m t context) := by
  unfold multipolygon.relateContour
  refine registerParts_settles ⟨_, rfl, matches_edges t⟩ ht.2
    (fun c h => ⟨(hg c h).oriented context false, (hg c h).nondegenerate⟩) (fun _ => .pure _) ?_
  intro nd mx s G _ hr
  exact runLinearCompound_settles hc hr _

theorem multipolygonRegion_settles {m : Multipolygon K} {t : Region K}
    (hg : m.Drawn) (ht : Contour.Drawn t) :
    Settles (Tangled m.edgeList (Contour.edgeList t)) (multipolygon.relateRegion m t context) := by
  unfold multipolygon.relateRegion
  refine registerParts_settles (ht.oriented context false) ht.2
    (fun c h => ⟨(hg c h).oriented context false, (hg c h).nondegenerate⟩) (fun _ => .pure _) ?_
  intro nd mx s G _ hr
  exact (runCompound_settles hc hr _).bind fun _ _ => .pure _

theorem multipolygonMultiregion_settles {m : Multipolygon K} {t : Multiregion K}
    (hg : m.Drawn) (ht : Multiregion.Drawn t) :
    Settles (Tangled m.edgeList (Multiregion.edgeList t))
      (multipolygon.relateMultiregion m t context) := by
  unfold multipolygon.relateMultiregion
  refine .ite (fun _ => .pure _) fun _ => ?_
  obtain ⟨l, hl, hm⟩ := hg.oriented context false
  obtain ⟨l', hl', hm'⟩ := ht.oriented context false
  rw [hl, hl']
  exact runCompound_settles hc (registered hm hm' hg.nondegenerate ht.nondegenerate) _

theorem multipolygonPolygon_settles {m : Multipolygon K} {t : Polygon K}
    (hg : m.Drawn) (ht : t.Drawn) :
    Settles (Tangled m.edgeList t.edgeList) (multipolygon.relatePolygon m t context) := by
  unfold multipolygon.relatePolygon
  refine registerParts_settles (ht.oriented context false) ht.nondegenerate
    (fun c h => ⟨(hg c h).oriented context false, (hg c h).nondegenerate⟩) (fun _ => .pure _) ?_
  intro nd mx s G _ hr
  exact (runCompound_settles hc hr _).bind fun _ _ => .pure _

theorem multipolygonMultipolygon_settles {g t : Multipolygon K} (hg : g.Drawn) (ht : t.Drawn) :
    Settles (Tangled g.edgeList t.edgeList) (multipolygon.relateMultipolygon g t context) := by
  unfold multipolygon.relateMultipolygon
  obtain ⟨l, hl, hm⟩ := hg.oriented context false
  obtain ⟨l', hl', hm'⟩ := ht.oriented context false
  rw [hl, hl']
  exact runCompound_settles hc (registered hm hm' hg.nondegenerate ht.nondegenerate) _

end Orient
