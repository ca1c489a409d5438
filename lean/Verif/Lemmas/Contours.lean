import Verif.Lemmas.Sweep.Scenes
import Verif.Lemmas.Jordan
import Verif.Lemmas.Loop

/-! # Two simple contours -/

set_option linter.unusedSectionVars false

namespace Orient

variable {K : Type} [Field K] [LinearOrder K] [IsStrictOrderedRing K]

section

open eventsQueue State

/-- The sweep over the registered outlines of two areas. -/
theorem Outline.scene {context : Context K} (hc : context.Exact) {s : State K} (hf : s.Fresh)
    {MG MT : List (Segment K × Bool)} {G T : List (Segment K)} {I E I' E' : Set (Point K)}
    (hG : (s.marks false).Perm MG) (hT : (s.marks true).Perm MT) (g : Outline MG G I' E')
    (t : Outline MT T I E) {mg mt : K}
    (bg : ∀ x ∈ segsPts G, x.x ≤ mg) (bt : ∀ x ∈ segsPts T, x.x ≤ mt) :
    ∃ ε P f, Scene context ε P s f (fun b => if b then mt else mg) (min mg mt) ∧
      (∀ b, Area ε P (s.marks b) (if b then I else I') (if b then E else E')) ∧
      s.operand false = segsPts G ∧ s.operand true = segsPts T ∧
      (s.segs false).Perm (G.map Segment.up) ∧ (s.segs true).Perm (T.map Segment.up) := by
  have pG : (s.segs false).Perm (G.map Segment.up) :=
    s.marks_fst false ▸ (hG.map Prod.fst).trans g.segs
  have pT : (s.segs true).Perm (T.map Segment.up) :=
    s.marks_fst true ▸ (hT.map Prod.fst).trans t.segs
  have reg : Registered s G T := ⟨hf, pts_perm pG, pts_perm pT⟩
  have hcl : ¬ Clash s := by
    rw [reg.clash]
    rintro (h | h)
    · exact h g.apart
    · exact h t.apart
  obtain ⟨ε, P, f, S⟩ := exists_scene hc hf hcl (fun b => if b then mt else mg) (by
    intro b x hx
    cases b
    · exact bg x (reg.goalPts ▸ hx)
    · exact bt x (reg.testPts ▸ hx))
  refine ⟨ε, P, f, S, fun b => ?_, reg.goalPts, reg.testPts, pG, pT⟩
  cases b
  · exact g.shape.area S.clock hG
  · exact t.shape.area S.clock hT

/-- Both sides of a contour are next to its points. -/
theorem Contour.Simple.near {a b : Contour K} (ha : a.Simple) (hb : b.Simple) {z : Point K}
    (hz : z ∈ b.pts) :
    (z ∈ a.interior → (b.interior ∩ a.interior).Nonempty ∧ (b.exterior ∩ a.interior).Nonempty) ∧
      (z ∈ a.exterior → (b.interior ∩ a.exterior).Nonempty) := by
  have hc : (reference.context : Context K).Exact := reference.context_exact
  obtain ⟨lb, hlb, nb, ob⟩ := hb.oriented hc
  obtain ⟨la, hla, na, oa⟩ := ha.oriented hc
  obtain ⟨m1, m2⟩ := marks_registered nb na
  have hf := ((Fresh.empty : (State.empty : State K).Fresh).register false nb).register true na
  obtain ⟨ε, P, f, S, A, e1, -⟩ := Outline.scene hc hf (.of_eq m1) (.of_eq m2) ob oa
    (hc.contourBox b hb.ne_nil).le_maxX (hc.contourBox a ha.ne_nil).le_maxX
  exact boundary_sides (b := false) S.clock S.clash A (e1 ▸ hz : z ∈ State.operand _ false)

end

/-- There are points outside of both contours. -/
theorem Contour.Simple.far {a b : Contour K} (ha : a.Simple) (hb : b.Simple) :
    (a.exterior ∩ b.exterior).Nonempty := by
  have key : ∀ {c : Contour K}, c.Simple → ∃ m, ∀ x : Point K, m < x.x → x ∈ c.exterior := by
    intro c hs
    have box := (reference.context_exact.contourBox c hs.ne_nil).interior
    refine ⟨((reference.context : Context K).contourBox c).maxX, fun x hx => ?_⟩
    have hn : x ∉ c.interior ∪ c.pts := fun h => absurd (box.le_maxX _ h) (not_le.mpr hx)
    rcases Contour.cover (c := c) fun h => hn (.inr h) with h | h
    · exact absurd (.inl h) hn
    · exact h
  obtain ⟨m, h1⟩ := key ha
  obtain ⟨n, h2⟩ := key hb
  refine ⟨⟨max m n + 1, 0⟩, h1 _ ?_, h2 _ ?_⟩
  · exact (le_max_left m n).trans_lt (lt_add_one _)
  · exact (le_max_right m n).trans_lt (lt_add_one _)

theorem Contour.exterior_iff_of_joined {c : Contour K} {p q : Point K} (h : Joined c.pts p q)
    (hp : p ∉ c.pts) (hq : q ∉ c.pts) : p ∈ c.exterior ↔ q ∈ c.exterior := by
  have key : ∀ {x : Point K}, x ∉ c.pts → (x ∈ c.exterior ↔ x ∉ c.interior) := by
    intro x hx
    constructor
    · exact fun h h' => Contour.not_both h' h
    · intro h
      rcases Contour.cover (c := c) hx with h' | h'
      · exact absurd h' h
      · exact h'
  rw [key hp, key hq, Contour.interior_iff_of_joined h]

theorem Joined.avoid {S T : Set (Point K)} {p q : Point K} (h : Joined S p q)
    (ht : ∀ r, Joined S p r → r ∉ S → r ∉ T) : Joined T p q := by
  induction h with
  | refl => exact .refl
  | @step q r h1 h2 ih =>
    refine .step ih fun z hz => ?_
    refine ht z (.step h1 fun w hw => h2 w ?_) (h2 z hz)
    exact Segment.pts_subset (Segment.start_mem _) hz hw

/-- Two points inside of a contour are on the same side of a contour which has no points there. -/
theorem Contour.Simple.same_inside {a b : Contour K} (hb : b.Simple) (h : a.pts ∩ b.interior = ∅)
    {p q : Point K} (hp : p ∈ b.interior) (hq : q ∈ b.interior) :
    p ∈ a.interior ↔ q ∈ a.interior := by
  have hj := (hb.joined_iff hp.1 hq.1).mpr (by simp [hp, hq])
  refine Contour.interior_iff_of_joined (hj.avoid (fun r hr hn hm => ?_))
  exact (Set.eq_empty_iff_forall_notMem.mp h) r ⟨hm, (Contour.interior_iff_of_joined hr).mp hp⟩

/-- Two points outside of a contour are on the same side of a contour which has no points there. -/
theorem Contour.Simple.same_outside {a b : Contour K} (hb : b.Simple) (h : a.pts ∩ b.exterior = ∅)
    {p q : Point K} (hp : p ∈ b.exterior) (hq : q ∈ b.exterior) :
    p ∈ a.interior ↔ q ∈ a.interior := by
  have hj := (hb.joined_iff hp.1 hq.1).mpr (by
    constructor
    · exact fun h => absurd hp (Contour.not_both h)
    · exact fun h => absurd hq (Contour.not_both h))
  refine Contour.interior_iff_of_joined (hj.avoid (fun r hr hn hm => ?_))
  exact (Set.eq_empty_iff_forall_notMem.mp h) r ⟨hm, (Contour.exterior_iff_of_joined hr hp.1 hn).mp hp⟩

/-- A contour with points at both sides of another one has points of it inside. -/
theorem Contour.Simple.inside_of_both {a b : Contour K} (ha : a.Simple) (hb : b.Simple)
    (h1 : (b.pts ∩ a.interior).Nonempty) (h2 : (b.pts ∩ a.exterior).Nonempty) :
    (a.pts ∩ b.interior).Nonempty := by
  by_contra h
  obtain ⟨z, z1, z2⟩ := h1
  obtain ⟨w, w1, w2⟩ := h2
  obtain ⟨⟨p, p1, p2⟩, -⟩ := (ha.near hb z1).1 z2
  obtain ⟨q, q1, q2⟩ := (ha.near hb w1).2 w2
  exact Contour.not_both ((hb.same_inside (Set.not_nonempty_iff_eq_empty.mp h) p1 q1).mp p2) q2

/-- A contour with points inside of another one has points of it outside. -/
theorem Contour.Simple.outside_of_inside {a b : Contour K} (ha : a.Simple) (hb : b.Simple)
    (h1 : (b.pts ∩ a.interior).Nonempty) : (a.pts ∩ b.exterior).Nonempty := by
  by_contra h
  obtain ⟨z, z1, z2⟩ := h1
  obtain ⟨-, p, p1, p2⟩ := (ha.near hb z1).1 z2
  obtain ⟨q, q1, q2⟩ := ha.far hb
  exact Contour.not_both ((hb.same_outside (Set.not_nonempty_iff_eq_empty.mp h) p1 q2).mp p2) q1

/-- Contours none of which has points outside of the other one are the same. -/
theorem Contour.Simple.eq_of_none_outside {a b : Contour K} (ha : a.Simple) (hb : b.Simple)
    (h1 : ¬ (a.pts ∩ b.exterior).Nonempty) (h2 : ¬ (b.pts ∩ a.exterior).Nonempty) :
    a.pts = b.pts := by
  refine hb.pts_eq_of_subset ha fun z hz => ?_
  by_contra hn
  rcases Contour.cover hn with h | h
  · exact h2 (hb.outside_of_inside ha ⟨z, hz, h⟩)
  · exact h1 ⟨z, hz, h⟩

/-- The points of a contour are joined along it. -/
theorem Contour.joined_of_disjoint {a : Contour K} {S : Set (Point K)} (h : a.pts ∩ S = ∅)
    {p q : Point K} (hp : p ∈ a.pts) (hq : q ∈ a.pts) : Joined S p q := by
  have hn : ∀ z ∈ a.pts, z ∉ S := fun z h1 h2 => (Set.eq_empty_iff_forall_notMem.mp h) z ⟨h1, h2⟩
  have edge : ∀ e ∈ a.edgeList, ∀ x ∈ e.pts, ∀ y ∈ e.pts, Joined S x y := fun e he x hx y hy =>
    .single fun z hz => hn z ⟨e, he, Segment.pts_subset hx hy hz⟩
  obtain ⟨e, he, hpe⟩ := hp
  have pos : 0 < a.vertices.length := by
    rw [← Contour.length_edgeList]; exact List.length_pos_of_mem he
  have chain : ∀ i (hi : i < a.vertices.length), Joined S a.vertices[0] a.vertices[i] := by
    intro i
    induction i with
    | zero => exact fun _ => .refl
    | succ i ih =>
      intro hi
      have hi' : i + 1 < a.edgeList.length := by rw [Contour.length_edgeList]; exact hi
      have hm : a.edgeList[i + 1] ∈ a.edgeList := List.getElem_mem _
      have he := Contour.edgeList_getElem a (i + 1) hi'
      have hmod : (i + 1 + (a.vertices.length - 1)) % a.vertices.length = i := by
        rw [show i + 1 + (a.vertices.length - 1) = i + a.vertices.length by omega, Nat.add_mod_right]
        exact Nat.mod_eq_of_lt (by omega)
      refine (ih (by omega)).trans (edge _ hm _ ?_ _ ?_)
      · have := Segment.start_mem a.edgeList[i + 1]
        rw [he] at this
        simp only [hmod] at this
        rw [he]; simp only [hmod]; exact this
      · have := Segment.finish_mem a.edgeList[i + 1]
        rw [he] at this ⊢
        exact this
  have all : ∀ z ∈ a.pts, Joined S a.vertices[0] z := by
    rintro z ⟨e, he, hz⟩
    obtain ⟨i, hi, rfl⟩ := List.mem_iff_getElem.mp he
    refine (chain i (by rw [← Contour.length_edgeList]; exact hi)).trans (edge _ he _ ?_ _ hz)
    have := Segment.finish_mem a.edgeList[i]
    rw [Contour.edgeList_getElem] at this ⊢
    exact this
  exact (all p ⟨e, he, hpe⟩).symm.trans (all q hq)

/-- A contour which does not meet another one is at one side of it. -/
theorem Contour.not_both_of_disjoint {a b : Contour K} (h : a.pts ∩ b.pts = ∅)
    (h1 : (a.pts ∩ b.interior).Nonempty) : ¬ (a.pts ∩ b.exterior).Nonempty := by
  rintro ⟨q, q1, q2⟩
  obtain ⟨p, p1, p2⟩ := h1
  exact Contour.not_both ((Contour.interior_iff_of_joined (joined_of_disjoint h p1 q1)).mp p2) q2

theorem Contour.Simple.sharesPiece {a : Contour K} (ha : a.Simple) : SharesPiece a.pts a.pts := by
  obtain ⟨e, he⟩ := List.exists_mem_of_ne_nil _ (Contour.edgeList_ne_nil ha.ne_nil)
  exact ⟨e, ha.nondegenerate he, fun z hz => ⟨e, he, hz⟩, fun z hz => ⟨e, he, hz⟩⟩

theorem SharesPiece.meet {S T : Set (Point K)} (h : SharesPiece S T) : (S ∩ T).Nonempty := by
  obtain ⟨u, -, h1, h2⟩ := h
  exact ⟨u.start, h1 u.start_mem, h2 u.start_mem⟩

/-- The relations of contours exclude each other. -/
theorem ContoursRel.unique {a b : Contour K} (ha : a.Simple) {r r' : Relation}
    (h : ContoursRel a b r) (h' : ContoursRel a b r') : r = r' := by
  have eqShare : a.pts = b.pts → SharesPiece a.pts b.pts := fun h => h ▸ ha.sharesPiece
  have cd : a.pts ∩ b.pts = ∅ → (a.pts ∩ b.interior).Nonempty → (a.pts ∩ b.exterior).Nonempty →
      False := fun h => Contour.not_both_of_disjoint h
  have sd : SharesPiece a.pts b.pts → a.pts ∩ b.pts = ∅ → False := fun h h' =>
    (Set.nonempty_iff_ne_empty.mp h.meet) h'
  have nd : (a.pts ∩ b.pts).Nonempty → a.pts ∩ b.pts = ∅ → False := fun h h' =>
    (Set.nonempty_iff_ne_empty.mp h) h'
  cases r <;> cases r' <;> first
    | rfl
    | exact h.elim
    | exact h'.elim
    | exact absurd h h'.1
    | exact absurd h' h.1
    | exact absurd (eqShare h) h'.1
    | exact absurd (eqShare h') h.1
    | exact (sd (eqShare h) h').elim
    | exact (sd (eqShare h') h).elim
    | exact absurd h.2 h'.1
    | exact absurd h'.2 h.1
    | exact (sd h.2 h').elim
    | exact (sd h'.2 h).elim
    | exact absurd h.2 h'.2.2
    | exact absurd h'.2 h.2.2
    | exact (cd h h'.2.1 h'.2.2).elim
    | exact (cd h' h.2.1 h.2.2).elim
    | exact (nd h.2.1 h').elim
    | exact (nd h'.2.1 h).elim

theorem SharesPiece.symm {S T : Set (Point K)} (h : SharesPiece S T) : SharesPiece T S := by
  obtain ⟨u, h1, h2, h3⟩ := h
  exact ⟨u, h1, h3, h2⟩

theorem Contour.Simple.both_symm {a b : Contour K} (ha : a.Simple) (hb : b.Simple)
    (h : (a.pts ∩ b.interior).Nonempty ∧ (a.pts ∩ b.exterior).Nonempty) :
    (b.pts ∩ a.interior).Nonempty ∧ (b.pts ∩ a.exterior).Nonempty :=
  ⟨hb.inside_of_both ha h.1 h.2, hb.outside_of_inside ha h.1⟩

/-- The relation of contours is symmetric. -/
theorem ContoursRel.symm {a b : Contour K} (ha : a.Simple) (hb : b.Simple) {r : Relation}
    (h : ContoursRel a b r) : ContoursRel b a r := by
  cases r with
  | equal => exact Eq.symm h
  | overlap => exact ⟨h.1.symm, h.2.symm⟩
  | cross => exact ⟨fun k => h.1 k.symm, ha.both_symm hb h.2⟩
  | touch =>
    exact ⟨fun k => h.1 k.symm, Set.inter_comm _ _ ▸ h.2.1, fun k => h.2.2 (hb.both_symm ha k)⟩
  | disjoint => exact (Set.inter_comm _ _).trans h
  | _ => exact h.elim

theorem Contour.start_mem_vertices {c : Contour K} {e : Segment K} (he : e ∈ c.edgeList) :
    e.start ∈ c.vertices := by
  obtain ⟨i, hi, rfl⟩ := List.mem_iff_getElem.mp he
  rw [Contour.edgeList_getElem]
  exact List.getElem_mem _

theorem Contour.finish_mem_vertices {c : Contour K} {e : Segment K} (he : e ∈ c.edgeList) :
    e.finish ∈ c.vertices := by
  obtain ⟨i, hi, rfl⟩ := List.mem_iff_getElem.mp he
  rw [Contour.edgeList_getElem]
  exact List.getElem_mem _

/-- A vertex on an edge is an end of it. -/
theorem Contour.Simple.endpoint_of_vertex {c : Contour K} (h : c.Simple) {e : Segment K}
    (he : e ∈ c.edgeList) {v : Point K} (hv : v ∈ c.vertices) (hm : v ∈ e.pts) : e.IsEndpoint v := by
  obtain ⟨f, hf, rfl⟩ := Contour.exists_edge_of_mem_vertices hv
  obtain ⟨i, hi, rfl⟩ := List.mem_iff_getElem.mp he
  obtain ⟨j, hj, rfl⟩ := List.mem_iff_getElem.mp hf
  have k := List.pairwise_iff_getElem.mp h.meet
  rcases lt_trichotomy i j with hij | rfl | hij
  · exact (k i j hi hj hij _ ⟨hm, Segment.finish_mem _⟩).1
  · exact .inr rfl
  · exact (k j i hj hi hij _ ⟨Segment.finish_mem _, hm⟩).2

end Orient
