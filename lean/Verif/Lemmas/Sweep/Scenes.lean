import Verif.Lemmas.Sweep.Relations
import Verif.Lemmas.Sweep.Settles
import Verif.Props.ContourEqual
import Verif.Lemmas.Reference

/-! What the relations with regions register, and the sweeps over it. -/

set_option linter.unusedSectionVars false

namespace Orient

variable {K : Type} [Field K] [LinearOrder K] [IsStrictOrderedRing K]

open Segment State eventsQueue Props

/-- A sweep over registered operands whose own segments have no common pieces. -/
theorem exists_scene {context : Context K} (hc : context.Exact) {s : State K} (hf : s.Fresh)
    (hcl : ¬ Clash s) (m : Bool → K) (hm : ∀ b, ∀ x ∈ s.operand b, x.x ≤ m b) :
    ∃ ε P f, Scene context ε P s f m (min (m false) (m true)) := by
  obtain ⟨P, hP, -⟩ := exists_breakPoints hf.wf
  obtain ⟨ε, hε⟩ := exists_inclination P
  rcases sweep_ends false hc (min (m false) (m true)) hf.wf hf.length with
    ⟨ems, d, -, -, -, h4⟩ | ⟨-, h2⟩
  · exact ⟨ε, P, _, hc, hf, ⟨hf.wf, hP, hε⟩, hcl, hm, rfl, h4⟩
  · exact absurd h2 hcl

theorem markOf_congr {a b : Prop} [Decidable a] [Decidable b] (h : a ↔ b) :
    (markOf a : Segment K → _) = markOf b := by
  funext e
  simp [markOf, h]

/-- The marked segments bound an area, however the sweep line is inclined. -/
def Shape (M : List (Segment K × Bool)) (I E : Set (Point K)) : Prop :=
  ∀ (ε : K) (P : Finset (Point K)), (∀ u ∈ M, u.1.start ∈ P ∧ u.1.finish ∈ P) →
    (∀ u ∈ M, ∀ v ∈ M, ¬ Same ε u.1 v.1 → ∀ x ∈ u.1.pts, x ∈ v.1.pts → x ∈ P) →
    (∀ p ∈ P, ∀ q ∈ P, p < q → p.time ε < q.time ε) → Area ε P M I E

theorem mem_marks_iff {s : State K} {b : Bool} {u : Segment K × Bool} : u ∈ s.marks b ↔
    ∃ i < s.nextLeft, (s.lefts i).fromTest = b ∧ u = (s.seg i, (s.lefts i).interiorToLeft) := by
  unfold State.marks
  simp only [List.mem_map, List.mem_filter, List.mem_range, decide_eq_true_eq]
  constructor
  · rintro ⟨i, ⟨h1, h2⟩, h3⟩; exact ⟨i, h1, h2, h3.symm⟩
  · rintro ⟨i, h1, h2, h3⟩; exact ⟨i, ⟨h1, h2⟩, h3.symm⟩

theorem Shape.area {M : List (Segment K × Bool)} {I E : Set (Point K)} (h : Shape M I E) {ε : K}
    {P : Finset (Point K)} {s : State K} (c : Clock ε P s) {b : Bool} (hp : (s.marks b).Perm M) :
    Area ε P (s.marks b) I E := by
  refine (h ε P (fun u hu => ?_) (fun u hu v hv => ?_) c.mono).perm hp.symm
  · obtain ⟨i, hi, -, rfl⟩ := mem_marks_iff.mp (hp.mem_iff.mpr hu)
    exact ⟨c.points.start i hi, c.points.finish i hi⟩
  · obtain ⟨i, hi, -, rfl⟩ := mem_marks_iff.mp (hp.mem_iff.mpr hu)
    obtain ⟨j, hj, -, rfl⟩ := mem_marks_iff.mp (hp.mem_iff.mpr hv)
    exact fun hn x => c.mem hi hj hn

/-- The endpoints of an edge are vertices and every vertex is an endpoint of an edge. -/
theorem Contour.exists_edge {c : Contour K} {v : Point K} (hv : v ∈ c.vertices) :
    ∃ e ∈ c.edgeList, e.finish = v := by
  obtain ⟨i, hi, rfl⟩ := List.mem_iff_getElem.mp hv
  refine ⟨_, List.getElem_mem (by rw [length_edgeList]; exact hi : i < c.edgeList.length), ?_⟩
  rw [edgeList_getElem]

theorem Contour.Simple.shape {c : Contour K} (hs : c.Simple) {p v q : Point K}
    (hl : c.LeastCorner p v q) :
    Shape (c.edgeList.map (markOf (0 < Orient.cross p v q))) c.interior c.exterior := by
  intro ε P hP _ hm
  have hv : ∀ v ∈ c.vertices, v ∈ P := by
    intro w hw
    obtain ⟨e, he, rfl⟩ := c.exists_edge hw
    obtain ⟨h1, h2⟩ := hP _ (List.mem_map_of_mem (f := markOf (0 < Orient.cross p v q)) he)
    rcases Segment.up_endpoint.mpr (.inr rfl : e.IsEndpoint e.finish) with h | h
    · exact h ▸ h1
    · exact h ▸ h2
  exact area_contour hs hv (fun a ha b hb => hm a (hv a ha) b (hv b hb)) hl

theorem sorted_swap {e : SegmentEndpoints K} (h : e.1 ≠ e.2) : sorted e.swap = sorted e := by
  unfold sorted
  simp only [Prod.fst_swap, Prod.snd_swap]
  rcases lt_or_gt_of_ne h with h | h
  · simp [h, h.not_gt]
  · simp [h, h.not_gt]

/-- The oriented edges of a contour with their flags. -/
theorem marked_oriented {context : Context K} (hc : context.Exact) {c : Contour K} (hs : c.Simple)
    {p v q : Point K} (hl : c.LeastCorner p v q) (hne : Orient.cross p v q ≠ 0) (clockwise : Bool) :
    ∃ l, contour.toOrientedEdgesEndpoints c context clockwise = .ok l ∧
      (l.map marked).Perm
        (c.edgeList.map (markOf (0 < Orient.cross p v q ↔ clockwise = false))) := by
  unfold contour.toOrientedEdgesEndpoints
  rw [contour.orientation_eq context hs.nodup hl]
  refine ⟨_, rfl, ?_⟩
  have hedge : c.edgeList = (contour.edges c.vertices).map ofEndpoints := (edges_ofEndpoints c).symm
  have hn : ∀ e ∈ contour.edges c.vertices, e.1 ≠ e.2 := fun e he =>
    hs.nondegenerate (e := ofEndpoints e) (hedge ▸ List.mem_map_of_mem (f := ofEndpoints) he)
  have hsgn : (context.angleOrientation p v q = (if clockwise then .clockwise else .counterclockwise)) ↔
      (0 < Orient.cross p v q ↔ clockwise = false) := by
    cases clockwise
    · simp [hc.counterclockwise]
    · simp only [if_true, hc.clockwise, Bool.true_eq_false, iff_false, not_lt]
      exact ⟨le_of_lt, fun h => lt_of_le_of_ne h hne⟩
  by_cases h : context.angleOrientation p v q = (if clockwise then .clockwise else .counterclockwise)
  · rw [if_pos h, hedge, List.map_map]
    refine .of_eq (List.map_congr_left fun e he => ?_)
    have h1 := hsgn.mp h
    have := hn e he
    simp only [marked, markOf, Function.comp_apply, h1, ofEndpoints, iff_true]
    refine Prod.ext rfl ?_
    simp only [gt_iff_lt]
    rcases lt_or_gt_of_ne this with h | h <;> simp [h, h.not_gt]
  · rw [if_neg h, hedge, List.map_map, List.map_map, List.map_reverse]
    refine (List.reverse_perm _).trans (.of_eq (List.map_congr_left fun e he => ?_))
    have h1 := mt hsgn.mpr h
    have := hn e he
    simp only [marked, markOf, Function.comp_apply, h1, ofEndpoints, iff_false]
    refine Prod.ext ?_ ?_
    · exact sorted_swap this
    · simp only [gt_iff_lt, Prod.fst_swap, Prod.snd_swap]
      rcases lt_or_gt_of_ne this with h | h <;> simp [h, h.not_gt]

theorem Neat.perm {l l' : List (Segment K)} (h : Neat l) (hp : l.Perm l') : Neat l' := by
  refine (hp.pairwise_iff fun {u v} h p hq => ?_).mp h
  exact (h p hq.symm).symm

theorem Neat.up {l : List (Segment K)} (h : Neat l) : Neat (l.map Segment.up) := by
  unfold Neat
  rw [List.pairwise_map]
  refine h.imp fun {u v} h p hp => ?_
  rw [Segment.pts_up, Segment.pts_up] at hp
  rw [Segment.up_endpoint, Segment.up_endpoint]
  exact h p hp

theorem Neat.proper {s : State K} {b : Bool} (h : Neat (s.segs b)) : Proper s b := by
  have key : ∀ i j, i < j → j < s.nextLeft → (s.lefts i).fromTest = b → (s.lefts j).fromTest = b →
      ∀ p ∈ (s.seg i).pts ∩ (s.seg j).pts, (s.seg i).IsEndpoint p ∧ (s.seg j).IsEndpoint p := by
    unfold Neat State.segs at h
    rw [List.pairwise_map, List.pairwise_filter, List.pairwise_iff_getElem] at h
    simp only [List.getElem_range, List.length_range, decide_eq_true_eq] at h
    exact fun i j hij hj => h i j (hij.trans hj) hj hij
  intro i hi j hj bi bj hij p hp hq
  rcases Nat.lt_or_gt_of_ne hij with h | h
  · exact hp.2 (key i j h hj bi bj p ⟨hp.1, hq⟩).1
  · exact hp.2 (key j i h hi bj bi p ⟨hq, hp.1⟩).2

theorem Contour.Simple.neat {c : Contour K} (h : c.Simple) : Neat c.edgeList := h.meet

theorem Contour.edgeList_ne_nil {c : Contour K} (h : c.vertices ≠ []) : c.edgeList ≠ [] := by
  rw [← List.length_pos_iff] at h ⊢
  rwa [Contour.length_edgeList]

/-- The marks of a goal and a test which are registered one after the other. -/
theorem marks_registered {goal test : List (SegmentEndpoints K)} (hg : ∀ e ∈ goal, e.1 ≠ e.2)
    (ht : ∀ e ∈ test, e.1 ≠ e.2) :
    ((State.empty.register false goal).register true test).marks false = goal.map marked ∧
    ((State.empty.register false goal).register true test).marks true = test.map marked := by
  have h0 : (State.empty : State K).Fresh := .empty
  have h1 := h0.register false hg
  refine ⟨?_, ?_⟩ <;> rw [h1.marks_register true ht, h0.marks_register false hg, State.marks_empty] <;>
    simp

theorem map_marked_fst (l : List (SegmentEndpoints K)) :
    (l.map marked).map Prod.fst = l.map sorted := by
  rw [List.map_map]; rfl

theorem map_markOf_fst (c : Prop) [Decidable c] (l : List (Segment K)) :
    (l.map (markOf c)).map Prod.fst = l.map Segment.up := by
  rw [List.map_map]; rfl

/-- The marked segments `M` are the segments `G`, directed upwards, and bound an area. -/
structure Outline (M : List (Segment K × Bool)) (G : List (Segment K)) (I E : Set (Point K)) : Prop where
  shape : Shape M I E
  segs : (M.map Prod.fst).Perm (G.map Segment.up)
  apart : Apart G
  nondegenerate : ∀ e ∈ G, e.Nondegenerate

theorem Shape.perm {M M' : List (Segment K × Bool)} {I E : Set (Point K)} (h : Shape M I E)
    (hp : M.Perm M') : Shape M' I E :=
  fun ε P h1 h2 h3 => (h ε P (fun u hu => h1 u (hp.mem_iff.mp hu))
    (fun u hu v hv => h2 u (hp.mem_iff.mp hu) v (hp.mem_iff.mp hv)) h3).perm hp

theorem Outline.perm {M M' : List (Segment K × Bool)} {G : List (Segment K)} {I E : Set (Point K)}
    (h : Outline M G I E) (hp : M.Perm M') : Outline M' G I E :=
  ⟨h.shape.perm hp, (hp.symm.map _).trans h.segs, h.apart, h.nondegenerate⟩

theorem map_up_pts (G : List (Segment K)) :
    (G.map Segment.up).map Segment.pts = G.map Segment.pts := by
  rw [List.map_map]
  exact List.map_congr_left fun u _ => Segment.pts_up u

theorem pts_perm {l G : List (Segment K)} (h : l.Perm (G.map Segment.up)) :
    (l.map Segment.pts).Perm (G.map Segment.pts) := by
  rw [← map_up_pts G]
  exact h.map _

/-- A segment of one list goes through an inner point of a segment of the other list, which is an inner
point of it, too. -/
def Crosses (G T : List (Segment K)) : Prop :=
  ∃ u ∈ T, ∃ v ∈ G, (u.pts ∩ v.pts).Subsingleton ∧ ∃ p, u.Inner p ∧ v.Inner p

theorem subsingleton_of_not_same {ε : K} {u v : Segment K} (hu : u.start.time ε < u.finish.time ε)
    (hv : v.start.time ε < v.finish.time ε) (h : ¬ Same ε u v) : (u.pts ∩ v.pts).Subsingleton := by
  rintro x ⟨x1, x2⟩ y ⟨y1, y2⟩
  obtain ⟨-, -, a1⟩ := (mem_pts_iff_height hu x).mp x1
  obtain ⟨-, -, a2⟩ := (mem_pts_iff_height hv x).mp x2
  obtain ⟨-, -, b1⟩ := (mem_pts_iff_height hu y).mp y1
  obtain ⟨-, -, b2⟩ := (mem_pts_iff_height hv y).mp y2
  have e : x.time ε = y.time ε := by
    by_contra hn
    exact h (same_of_two hn (a1.symm.trans a2) (b1.symm.trans b2))
  exact Point.ext_time e (by rw [a1, b1, e])

theorem Segment.inner_up {u : Segment K} {p : Point K} : u.up.Inner p ↔ u.Inner p := by
  unfold Segment.Inner
  rw [Segment.pts_up, Segment.up_endpoint]

theorem crosses_of_crossing {ε : K} {P : Finset (Point K)} {s : State K} (c : Clock ε P s)
    {G T : List (Segment K)} (pG : (s.segs false).Perm (G.map Segment.up))
    (pT : (s.segs true).Perm (T.map Segment.up)) (h : Crossing ε s) : Crosses G T := by
  obtain ⟨u, hu, v, hv, bu, bv, hn, p, pu, pv⟩ := h
  have hs := subsingleton_of_not_same (c.times hu) (c.times hv) hn
  obtain ⟨e, he, eu⟩ := List.mem_map.mp (pT.mem_iff.mp (State.mem_segs.mpr ⟨u, hu, bu, rfl⟩))
  obtain ⟨e', he', ev⟩ := List.mem_map.mp (pG.mem_iff.mp (State.mem_segs.mpr ⟨v, hv, bv, rfl⟩))
  rw [← eu] at hs pu
  rw [← ev] at hs pv
  rw [Segment.pts_up, Segment.pts_up] at hs
  exact ⟨e, he, e', he', hs, p, Segment.inner_up.mp pu, Segment.inner_up.mp pv⟩

/-- Segments which have a common inner point at which one of them goes away from the other one are not on
one line. -/
theorem Segment.LeavesAt.subsingleton {u v : Segment K} (hu : u.Nondegenerate) (hv : v.Nondegenerate)
    {p : Point K} (pu : u.Inner p) (pv : v.Inner p) {S : Set (Point K)} (hS : v.pts ⊆ S)
    (h : u.LeavesAt p S) : (u.pts ∩ v.pts).Subsingleton := by
  classical
  obtain ⟨a, ha, hsub, hfree⟩ := h
  obtain ⟨ε, hε⟩ := exists_inclination
    ({u.up.start, u.up.finish, v.up.start, v.up.finish} : Finset (Point K))
  have tu : u.up.start.time ε < u.up.finish.time ε :=
    hε _ (by simp) _ (by simp) (Segment.up_lt hu)
  have tv : v.up.start.time ε < v.up.finish.time ε :=
    hε _ (by simp) _ (by simp) (Segment.up_lt hv)
  rw [← Segment.pts_up v] at hS
  rw [← Segment.pts_up u] at hsub
  rw [← Segment.inner_up] at pu pv
  rw [← Segment.pts_up u, ← Segment.pts_up v]
  refine subsingleton_of_not_same tu tv fun hs => ?_
  obtain ⟨k1, k2, k3⟩ := (mem_pts_iff_height tu p).mp pu.1
  obtain ⟨a1, a2, a3⟩ := (mem_pts_iff_height tu a).mp (hsub (finish_mem _))
  obtain ⟨l1, l2, l3⟩ := (mem_pts_iff_height tv p).mp pv.1
  have w1 : v.up.start.time ε < p.time ε := lt_of_le_of_ne l1 fun e => pv.2 (.inl
    (Point.ext_time e.symm (by rw [l3, ← e, height_start])))
  have w2 : p.time ε < v.up.finish.time ε := lt_of_le_of_ne l2 fun e => pv.2 (.inr
    (Point.ext_time e (by rw [l3, e, height_finish tv])))
  have hne : a.time ε ≠ p.time ε := fun e => ha (Point.ext_time e (by rw [a3, k3, e]))
  obtain ⟨b, hb, hbp, b1, b2⟩ := eventsQueue.exists_near ε w1 w2 hne
  obtain ⟨-, -, m3⟩ := (mem_pts_iff_height tu b).mp (hsub hb)
  refine hbp (congrArg (Point.time ε) (hfree b hb (hS ?_)))
  exact (mem_pts_iff_height tv b).mpr ⟨b1, b2, m3.trans (hs.at _)⟩

theorem EdgesCross.crosses {G T : List (Segment K)} (vG : ∀ v ∈ G, v.Nondegenerate)
    (vT : ∀ u ∈ T, u.Nondegenerate) (h : EdgesCross G T) : Crosses G T := by
  obtain ⟨u, hu, v, hv, p, hp, nu, nv, hl⟩ := h
  refine ⟨u, hu, v, hv, ?_, p, ⟨hp.1, nu⟩, ⟨hp.2, nv⟩⟩
  rcases hl with hl | hl
  · exact hl.subsingleton (vT u hu) (vG v hv) ⟨hp.1, nu⟩ ⟨hp.2, nv⟩ fun x hx =>
      (⟨v, hv, hx⟩ : x ∈ segsPts G)
  · rw [Set.inter_comm]
    exact hl.subsingleton (vG v hv) (vT u hu) ⟨hp.2, nv⟩ ⟨hp.1, nu⟩ fun x hx =>
      (⟨u, hu, hx⟩ : x ∈ segsPts T)

theorem Segment.leavesAt_up {u : Segment K} {p : Point K} {S : Set (Point K)} :
    u.up.LeavesAt p S ↔ u.LeavesAt p S := by
  unfold Segment.LeavesAt
  rw [Segment.pts_up]

/-- The crossings of registered segments. -/
theorem sharp_iff {s : State K} {G T : List (Segment K)} (pG : (s.segs false).Perm (G.map Segment.up))
    (pT : (s.segs true).Perm (T.map Segment.up)) : Sharp s ↔ EdgesCross G T := by
  have eG : s.operand false = segsPts G := by
    rw [State.operand_eq, segsPts_of_perm (pts_perm pG)]
  have eT : s.operand true = segsPts T := by
    rw [State.operand_eq, segsPts_of_perm (pts_perm pT)]
  have get : ∀ i < s.nextLeft, ((s.lefts i).fromTest = true ∧ ∃ e ∈ T, e.up = s.seg i) ∨
      ((s.lefts i).fromTest = false ∧ ∃ e ∈ G, e.up = s.seg i) := by
    intro i hi
    cases hb : (s.lefts i).fromTest with
    | true =>
      exact .inl ⟨rfl, List.mem_map.mp (pT.mem_iff.mp (State.mem_segs.mpr ⟨i, hi, hb, rfl⟩))⟩
    | false =>
      exact .inr ⟨rfl, List.mem_map.mp (pG.mem_iff.mp (State.mem_segs.mpr ⟨i, hi, hb, rfl⟩))⟩
  constructor
  · rintro ⟨u, hu, v, hv, hne, p, pu, pv, hl⟩
    rcases get u hu with ⟨bu, e, he, eu⟩ | ⟨bu, e, he, eu⟩ <;>
    rcases get v hv with ⟨bv, d, hd, ev⟩ | ⟨bv, d, hd, ev⟩
    · exact absurd (bu.trans bv.symm) hne
    · rw [bv, eG, ← eu, Segment.leavesAt_up] at hl
      rw [← eu, Segment.inner_up] at pu
      rw [← ev, Segment.inner_up] at pv
      exact ⟨e, he, d, hd, p, ⟨pu.1, pv.1⟩, pu.2, pv.2, .inl hl⟩
    · rw [bv, eT, ← eu, Segment.leavesAt_up] at hl
      rw [← eu, Segment.inner_up] at pu
      rw [← ev, Segment.inner_up] at pv
      exact ⟨d, hd, e, he, p, ⟨pv.1, pu.1⟩, pv.2, pu.2, .inr hl⟩
    · exact absurd (bu.trans bv.symm) hne
  · rintro ⟨e, he, d, hd, p, hp, ne, nd, hl⟩
    obtain ⟨u, hu, bu, eu⟩ := State.mem_segs.mp (pT.mem_iff.mpr (List.mem_map_of_mem he))
    obtain ⟨v, hv, bv, ev⟩ := State.mem_segs.mp (pG.mem_iff.mpr (List.mem_map_of_mem hd))
    have pu : (s.seg u).Inner p := by rw [eu, Segment.inner_up]; exact ⟨hp.1, ne⟩
    have pv : (s.seg v).Inner p := by rw [ev, Segment.inner_up]; exact ⟨hp.2, nd⟩
    rcases hl with hl | hl
    · refine ⟨u, hu, v, hv, by rw [bu, bv]; simp, p, pu, pv, ?_⟩
      rw [bv, eG, eu, Segment.leavesAt_up]
      exact hl
    · refine ⟨v, hv, u, hu, by rw [bu, bv]; simp, p, pv, pu, ?_⟩
      rw [bu, eT, ev, Segment.leavesAt_up]
      exact hl

/-- What `process_compound_queue` answers about registered areas. -/
theorem Outline.compound' {context : Context K} (hc : context.Exact) {s : State K} (hf : s.Fresh)
    {MG MT : List (Segment K × Bool)} {G T : List (Segment K)} {I E I' E' : Set (Point K)}
    (hG : (s.marks false).Perm MG) (hT : (s.marks true).Perm MT) (g : Outline MG G I' E')
    (t : Outline MT T I E) {mg mt : K}
    (bg : ∀ x ∈ segsPts G, x.x ≤ mg) (bt : ∀ x ∈ segsPts T, x.x ≤ mt) :
    ∃ r, runCompound context s (min mg mt) = .ok r ∧
      CompoundAnswer (EdgesCross G T) I (segsPts T) E I' (segsPts G) E' r := by
  have pG : (s.segs false).Perm (G.map Segment.up) :=
    s.marks_fst false ▸ (hG.map Prod.fst).trans g.segs
  have pT : (s.segs true).Perm (T.map Segment.up) :=
    s.marks_fst true ▸ (hT.map Prod.fst).trans t.segs
  have reg : Registered s G T := ⟨hf, pts_perm pG, pts_perm pT⟩
  have hcl : ¬ Clash s := by
    rw [reg.clash]
    rintro (h | h)
    · exact h g.apart
    · exact h t.apart
  obtain ⟨ε, P, f, S⟩ := exists_scene hc hf hcl (fun b => if b then mt else mg) (by
    intro b x hx
    cases b
    · exact bg x (reg.goalPts ▸ hx)
    · exact bt x (reg.testPts ▸ hx))
  have A : ∀ b, Area ε P (s.marks b) (if b then I else I') (if b then E else E') := by
    intro b
    cases b
    · exact g.shape.area S.clock hG
    · exact t.shape.area S.clock hT
  obtain ⟨r, hr, h⟩ := S.compound' A
  rw [reg.goalPts, reg.testPts, sharp_iff pG pT] at h
  exact ⟨r, hr, h⟩

/-- What `process_compound_queue` answers about registered areas. -/
theorem Outline.compound {context : Context K} (hc : context.Exact) {s : State K} (hf : s.Fresh)
    {MG MT : List (Segment K × Bool)} {G T : List (Segment K)} {I E I' E' : Set (Point K)}
    (hG : (s.marks false).Perm MG) (hT : (s.marks true).Perm MT) (g : Outline MG G I' E')
    (t : Outline MT T I E) (neat : Neat G ∨ Neat T) {mg mt : K}
    (bg : ∀ x ∈ segsPts G, x.x ≤ mg) (bt : ∀ x ∈ segsPts T, x.x ≤ mt) :
    ∃ r, runCompound context s (min mg mt) = .ok r ∧
      CompoundRel I (segsPts T) E I' (segsPts G) E' r := by
  have pG : (s.segs false).Perm (G.map Segment.up) :=
    s.marks_fst false ▸ (hG.map Prod.fst).trans g.segs
  have pT : (s.segs true).Perm (T.map Segment.up) :=
    s.marks_fst true ▸ (hT.map Prod.fst).trans t.segs
  have reg : Registered s G T := ⟨hf, pts_perm pG, pts_perm pT⟩
  have hcl : ¬ Clash s := by
    rw [reg.clash]
    rintro (h | h)
    · exact h g.apart
    · exact h t.apart
  obtain ⟨ε, P, f, S⟩ := exists_scene hc hf hcl (fun b => if b then mt else mg) (by
    intro b x hx
    cases b
    · exact bg x (reg.goalPts ▸ hx)
    · exact bt x (reg.testPts ▸ hx))
  have A : ∀ b, Area ε P (s.marks b) (if b then I else I') (if b then E else E') := by
    intro b
    cases b
    · exact g.shape.area S.clock hG
    · exact t.shape.area S.clock hT
  obtain ⟨b, hb⟩ : ∃ b, Proper s b := by
    rcases neat with h | h
    · exact ⟨false, (h.up.perm pG.symm).proper⟩
    · exact ⟨true, (h.up.perm pT.symm).proper⟩
  obtain ⟨r, hr, h⟩ := S.compound A hb
  rw [reg.goalPts, reg.testPts] at h
  exact ⟨r, hr, h⟩

/-- What `process_linear_compound_queue` answers about a registered area and registered segments. -/
theorem Outline.linearCompound' {context : Context K} (hc : context.Exact) {s : State K} (hf : s.Fresh)
    {MG : List (Segment K × Bool)} {G T : List (Segment K)} {I E : Set (Point K)}
    (hG : (s.marks false).Perm MG) (pT : ((s.marks true).map Prod.fst).Perm (T.map Segment.up))
    (g : Outline MG G I E) (aT : Apart T) (nG : G ≠ []) {mg mt : K}
    (bg : ∀ x ∈ segsPts G, x.x ≤ mg) (bt : ∀ x ∈ segsPts T, x.x ≤ mt) :
    ∃ r, runLinearCompound context s (min mg mt) = .ok r ∧
      LinearAnswer (EdgesCross G T) (segsPts G ⊆ segsPts T) (segsPts T) I (segsPts G) E r := by
  have pG : (s.segs false).Perm (G.map Segment.up) :=
    s.marks_fst false ▸ (hG.map Prod.fst).trans g.segs
  have pT : (s.segs true).Perm (T.map Segment.up) := s.marks_fst true ▸ pT
  have reg : Registered s G T := ⟨hf, pts_perm pG, pts_perm pT⟩
  have hcl : ¬ Clash s := by
    rw [reg.clash]
    rintro (h | h)
    · exact h g.apart
    · exact h aT
  obtain ⟨ε, P, f, S⟩ := exists_scene hc hf hcl (fun b => if b then mt else mg) (by
    intro b x hx
    cases b
    · exact bg x (reg.goalPts ▸ hx)
    · exact bt x (reg.testPts ▸ hx))
  obtain ⟨r, hr, h⟩ := S.linearCompound' (g.shape.area S.clock hG) (by
    obtain ⟨u, hu⟩ := List.exists_mem_of_ne_nil _ nG
    exact reg.goalPts ▸ ⟨u.start, u, hu, u.start_mem⟩)
  rw [reg.goalPts, reg.testPts, sharp_iff pG pT] at h
  exact ⟨r, hr, h⟩

/-- What `process_linear_compound_queue` answers about a registered area and registered segments. -/
theorem Outline.linearCompound {context : Context K} (hc : context.Exact) {s : State K} (hf : s.Fresh)
    {MG : List (Segment K × Bool)} {G T : List (Segment K)} {I E : Set (Point K)}
    (hG : (s.marks false).Perm MG) (pT : ((s.marks true).map Prod.fst).Perm (T.map Segment.up))
    (g : Outline MG G I E) (aT : Apart T) (neat : Neat G) (nG : G ≠ []) {mg mt : K}
    (bg : ∀ x ∈ segsPts G, x.x ≤ mg) (bt : ∀ x ∈ segsPts T, x.x ≤ mt) :
    ∃ r, runLinearCompound context s (min mg mt) = .ok r ∧
      (LinearCompoundRel (segsPts T) I (segsPts G) E r ∨ (r = .touch ∧ segsPts G ⊆ segsPts T ∧
        (segsPts T ∩ I).Nonempty ∧ (segsPts T ∩ E).Nonempty)) := by
  have pG : (s.segs false).Perm (G.map Segment.up) :=
    s.marks_fst false ▸ (hG.map Prod.fst).trans g.segs
  have pT : (s.segs true).Perm (T.map Segment.up) := s.marks_fst true ▸ pT
  have reg : Registered s G T := ⟨hf, pts_perm pG, pts_perm pT⟩
  have hcl : ¬ Clash s := by
    rw [reg.clash]
    rintro (h | h)
    · exact h g.apart
    · exact h aT
  obtain ⟨ε, P, f, S⟩ := exists_scene hc hf hcl (fun b => if b then mt else mg) (by
    intro b x hx
    cases b
    · exact bg x (reg.goalPts ▸ hx)
    · exact bt x (reg.testPts ▸ hx))
  obtain ⟨r, hr, h⟩ := S.linearCompound (g.shape.area S.clock hG) (neat.up.perm pG.symm).proper (by
    obtain ⟨u, hu⟩ := List.exists_mem_of_ne_nil _ nG
    exact reg.goalPts ▸ ⟨u.start, u, hu, u.start_mem⟩)
  rw [reg.goalPts, reg.testPts] at h
  exact ⟨r, hr, h⟩

/-- An area has inner and outer points. -/
theorem Outline.nonempty {s : State K} (hf : s.Fresh) {MG : List (Segment K × Bool)}
    {G : List (Segment K)} {I E : Set (Point K)} (hG : (s.marks false).Perm MG)
    (hT : s.marks true = []) (g : Outline MG G I E) (nG : G ≠ []) : I.Nonempty ∧ E.Nonempty := by
  have pG : (s.segs false).Perm (G.map Segment.up) :=
    s.marks_fst false ▸ (hG.map Prod.fst).trans g.segs
  have pT : s.segs true = [] := by rw [← s.marks_fst, hT]; rfl
  have reg : Registered s G [] := ⟨hf, pts_perm pG, by rw [pT]⟩
  have hcl : ¬ Clash s := by
    rw [reg.clash]
    rintro (h | h)
    · exact h g.apart
    · exact h List.Pairwise.nil
  obtain ⟨P, hP, -⟩ := exists_breakPoints hf.wf
  obtain ⟨ε, hε⟩ := exists_inclination P
  have c : Clock ε P s := ⟨hf.wf, hP, hε⟩
  have A := g.shape.area c hG
  obtain ⟨u, hu⟩ := List.exists_mem_of_ne_nil _ nG
  obtain ⟨i, hi, hb, -⟩ := State.mem_segs.mp (pG.mem_iff.mpr (List.mem_map_of_mem hu))
  obtain ⟨v, v0, v1, hg⟩ := exists_generic_step P (c.times hi).ne one_pos
  have hm : lerp (s.seg i).start (s.seg i).finish v ∈ (s.seg i).pts := ⟨v, v0.le, v1, rfl⟩
  obtain ⟨k1, k2, -⟩ := (mem_pts_iff_height (c.times hi) _).mp hm
  have ai : ActiveAt ε s false ((lerp (s.seg i).start (s.seg i).finish v).time ε) i :=
    ⟨hb, lt_of_le_of_ne k1 (hg _ (c.points.start i hi)),
      lt_of_le_of_ne k2 (hg _ (c.points.finish i hi)).symm⟩
  obtain ⟨δ, N⟩ := exists_nearby c hg ((s.seg i).height ε _)
  obtain ⟨h1, h2, h3, h4⟩ := N.edge c hcl A hg hi ai
  cases hi : (s.lefts i).interiorToLeft
  · exact ⟨⟨_, h3.mpr hi⟩, ⟨_, h2.mpr hi⟩⟩
  · exact ⟨⟨_, h1.mpr hi⟩, ⟨_, h4.mpr hi⟩⟩

theorem Contour.Simple.outline {c : Contour K} (hs : c.Simple) {p v q : Point K}
    (hl : c.LeastCorner p v q) :
    Outline (c.edgeList.map (markOf (0 < Orient.cross p v q))) c.edgeList c.interior c.exterior :=
  ⟨hs.shape hl, .of_eq (map_markOf_fst _ _), hs.valid.2, hs.valid.1⟩

/-- The oriented edges of a simple contour bound its region. -/
theorem Contour.Simple.oriented {context : Context K} (hc : context.Exact) {c : Contour K}
    (hs : c.Simple) : ∃ l, contour.toOrientedEdgesEndpoints c context false = .ok l ∧
      (∀ e ∈ l, e.1 ≠ e.2) ∧ Outline (l.map marked) c.edgeList c.interior c.exterior := by
  obtain ⟨p, v, q, hl, hne⟩ := hs.leastCorner
  obtain ⟨l, h1, h2⟩ := marked_oriented hc hs hl hne false
  refine ⟨l, h1, (matches_oriented h1).ne fun u hu => hs.nondegenerate hu, ?_⟩
  refine (hs.outline hl).perm ?_
  rw [markOf_congr (show (0 < Orient.cross p v q ↔ false = false) ↔ 0 < Orient.cross p v q by simp)] at h2
  exact h2.symm

theorem Contour.Simple.interior_nonempty {c : Contour K} (hs : c.Simple) : c.interior.Nonempty := by
  obtain ⟨l, -, hn, h⟩ := hs.oriented reference.context_exact
  have h0 : (State.empty : State K).Fresh := .empty
  refine (Outline.nonempty (h0.register false hn) (MG := l.map marked) ?_ ?_ h
    (Contour.edgeList_ne_nil hs.ne_nil)).1
  · rw [h0.marks_register false hn, State.marks_empty]
    simp
  · rw [h0.marks_register false hn, State.marks_empty]
    simp

/-! ### boxes -/

/-- Every ray from an inner point meets the contour. -/
theorem Contour.ray_meets {c : Contour K} {p d : Point K} (hd : IsDirection d) (hp : p ∈ c.interior) :
    ∃ x ∈ c.pts, x ∈ ray p d := by
  by_contra hn
  push Not at hn
  have h1 := hp.2 d hd fun v hv => hn v (Contour.vertex_mem_pts hv)
  have h2 : edgesMeeting c (ray p d) = 0 := by
    unfold edgesMeeting
    rw [List.countP_eq_zero]
    intro e he
    simp only [decide_eq_true_eq]
    rintro ⟨x, h1, h2⟩
    exact hn x ⟨e, he, h1⟩ h2
  rw [h2] at h1
  exact absurd h1 (by decide)

/-- Inner points of a region are in the box of its contour. -/
theorem IsBoxOf.interior {c : Contour K} {b : Box K} (h : IsBoxOf b c.pts) :
    IsBoxOf b (c.interior ∪ c.pts) := by
  have ev : ∀ {p d : Point K}, IsDirection d → p ∈ c.interior → ∃ x ∈ c.pts, x ∈ ray p d :=
    fun hd hp => Contour.ray_meets hd hp
  refine ⟨?_, ?_, ?_, ?_, ?_, ?_, ?_, ?_⟩
  · rintro p (hp | hp)
    · obtain ⟨x, hx, t, ht, rfl⟩ := ev (d := ⟨-1, 0⟩) (.inl (by simp)) hp
      have := h.minX_le _ hx
      simp only at this
      linarith
    · exact h.minX_le p hp
  · rintro p (hp | hp)
    · obtain ⟨x, hx, t, ht, rfl⟩ := ev (d := ⟨1, 0⟩) (.inl (by simp)) hp
      have := h.le_maxX _ hx
      simp only at this
      linarith
    · exact h.le_maxX p hp
  · rintro p (hp | hp)
    · obtain ⟨x, hx, t, ht, rfl⟩ := ev (d := ⟨0, -1⟩) (.inr (by simp)) hp
      have := h.minY_le _ hx
      simp only at this
      linarith
    · exact h.minY_le p hp
  · rintro p (hp | hp)
    · obtain ⟨x, hx, t, ht, rfl⟩ := ev (d := ⟨0, 1⟩) (.inr (by simp)) hp
      have := h.le_maxY _ hx
      simp only at this
      linarith
    · exact h.le_maxY p hp
  · obtain ⟨p, hp, e⟩ := h.minX_mem; exact ⟨p, .inr hp, e⟩
  · obtain ⟨p, hp, e⟩ := h.maxX_mem; exact ⟨p, .inr hp, e⟩
  · obtain ⟨p, hp, e⟩ := h.minY_mem; exact ⟨p, .inr hp, e⟩
  · obtain ⟨p, hp, e⟩ := h.maxY_mem; exact ⟨p, .inr hp, e⟩

/-- Geometries with disjoint boxes have no common points. -/
theorem box.inter_empty {a b : Box K} {S T : Set (Point K)} (ha : IsBoxOf a S) (hb : IsBoxOf b T)
    (h : box.disjointWith a b = true) : S ∩ T = ∅ := by
  refine Set.not_nonempty_iff_eq_empty.mp ?_
  rintro ⟨x, h1, h2⟩
  rw [box.not_disjointWith ha hb h1 h2] at h
  cases h

theorem Contour.SameCycle.edges_perm {c d : Contour K} (h : c.SameCycle d) :
    (c.edgeList.map Segment.pts).Perm (d.edgeList.map Segment.pts) := by
  obtain ⟨vs⟩ := c
  obtain ⟨ws⟩ := d
  obtain ⟨k, hk | hk⟩ := h <;> simp only at hk <;> subst hk
  · rw [Contour.edgeList_rotate]
    exact (List.rotate_perm _ k).map _
  · rw [Contour.edgeList_reverse, Contour.edgeList_rotate, List.map_reverse, List.map_map]
    refine (List.reverse_perm _).trans ?_
    refine (List.Perm.of_eq (List.map_congr_left (g := Segment.pts)
      fun u _ => Segment.pts_reverse u)).trans ?_
    exact ((List.rotate_perm _ 1).trans (List.rotate_perm _ k)).map _

theorem Contour.SameCycle.mem_vertices {c d : Contour K} (h : c.SameCycle d) {v : Point K} :
    v ∈ c.vertices ↔ v ∈ d.vertices := by
  obtain ⟨k, hk | hk⟩ := h <;> rw [hk] <;> simp

theorem Contour.SameCycle.edgesMeeting {c d : Contour K} (h : c.SameCycle d) (S : Set (Point K)) :
    edgesMeeting c S = edgesMeeting d S := by
  classical
  have key : ∀ c : Contour K, Orient.edgesMeeting c S =
      (c.edgeList.map Segment.pts).countP (fun T => decide (T ∩ S).Nonempty) := by
    intro c
    unfold Orient.edgesMeeting
    rw [List.countP_map]
    congr
  rw [key, key]
  exact h.edges_perm.countP_eq _

/-- Same cycles bound the same regions. -/
theorem Contour.SameCycle.interior {c d : Contour K} (h : c.SameCycle d) :
    c.interior = d.interior := by
  ext p
  unfold Contour.interior Locates AvoidsVertices
  simp only [Set.mem_ofPred_eq, h.pts, h.mem_vertices, h.edgesMeeting]

end Orient
