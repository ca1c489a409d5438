import Verif.Lemmas.Sweep.Terminate
import Verif.Lemmas.SimpleEdges
import Verif.Model.Relate

/-! Registering segments: the heap the sweep starts with. -/

set_option linter.unusedSectionVars false

namespace Orient.State

variable {K : Type} [Field K] [LinearOrder K] [IsStrictOrderedRing K]

open Segment eventsQueue

/-- The registered segment, from the lesser to the greater endpoint. -/
def sorted (e : SegmentEndpoints K) : Segment K :=
  ⟨if e.1 > e.2 then e.2 else e.1, if e.1 > e.2 then e.1 else e.2⟩

theorem pts_sorted (e : SegmentEndpoints K) : (sorted e).pts = (⟨e.1, e.2⟩ : Segment K).pts := by
  unfold sorted
  split_ifs with h
  · exact pts_reverse ⟨e.1, e.2⟩
  · rfl

theorem sorted_lt {e : SegmentEndpoints K} (h : e.1 ≠ e.2) : (sorted e).start < (sorted e).finish := by
  unfold sorted
  split_ifs with h'
  · exact h'
  · exact lt_of_le_of_ne (not_lt.mp h') h

/-- Nothing has been divided, popped or related yet. -/
structure Fresh (s : State K) : Prop where
  wf : s.WF
  length : s.queue.length = 2 * s.nextLeft
  nextRight : s.nextRight = s.nextLeft
  right : ∀ i < s.nextLeft, (s.lefts i).right = i
  lefts : ∀ i < s.nextLeft, Ev.left i ∈ s.queue
  rights : ∀ i < s.nextLeft, Ev.right i ∈ s.queue
  originalStart : ∀ i < s.nextLeft, (s.lefts i).originalStart = (s.lefts i).start
  originalEnd : ∀ i < s.nextLeft, (s.rights i).originalStart = (s.rights i).start
  relation : ∀ i < s.nextLeft, (s.lefts i).relation = .disjoint
  overlapKind : ∀ i < s.nextLeft, (s.lefts i).overlapKind = .none
  other : ∀ i < s.nextLeft, (s.lefts i).otherInteriorToLeft = false

theorem Fresh.empty : (State.empty : State K).Fresh := by
  refine ⟨⟨?_, ?_, ?_, ?_, ?_, ?_⟩, ?_, ?_, ?_, ?_, ?_, ?_, ?_, ?_, ?_, ?_⟩ <;> simp [State.empty]

/-- The segments of an operand, in the order in which they have been registered. -/
def segs (s : State K) (fromTest : Bool) : List (Segment K) :=
  ((List.range s.nextLeft).filter (fun i => decide ((s.lefts i).fromTest = fromTest))).map s.seg

theorem segs_empty (b : Bool) : (State.empty : State K).segs b = [] := by
  simp [segs, State.empty]

theorem mem_segs {s : State K} {b : Bool} {u : Segment K} :
    u ∈ s.segs b ↔ ∃ i < s.nextLeft, (s.lefts i).fromTest = b ∧ s.seg i = u := by
  simp [segs, and_assoc]

theorem operand_eq (s : State K) (b : Bool) : s.operand b = segsPts (s.segs b) := by
  ext x
  constructor
  · rintro ⟨i, hi, hb, hx⟩
    exact ⟨s.seg i, mem_segs.mpr ⟨i, hi, hb, rfl⟩, hx⟩
  · rintro ⟨u, hu, hx⟩
    obtain ⟨i, hi, hb, rfl⟩ := mem_segs.mp hu
    exact ⟨i, hi, hb, hx⟩

section one

variable (s : State K) (b : Bool) (e : SegmentEndpoints K)

theorem registerOne_lefts_new : (s.registerOne b e).lefts s.nextLeft =
    { start := (sorted e).start, right := s.nextRight, originalStart := (sorted e).start, fromTest := b
      relation := .disjoint, overlapKind := .none, interiorToLeft := !decide (e.1 > e.2)
      otherInteriorToLeft := false } := by
  simp [registerOne, sorted]

theorem registerOne_lefts_old {i : Nat} (hi : i < s.nextLeft) :
    (s.registerOne b e).lefts i = s.lefts i := by
  simp [registerOne, hi.ne]

theorem registerOne_rights_new : (s.registerOne b e).rights s.nextRight =
    { start := (sorted e).finish, left := s.nextLeft, originalStart := (sorted e).finish } := by
  simp [registerOne, sorted]

theorem registerOne_rights_old {i : Nat} (hi : i < s.nextRight) :
    (s.registerOne b e).rights i = s.rights i := by
  simp [registerOne, hi.ne]

theorem registerOne_nextLeft : (s.registerOne b e).nextLeft = s.nextLeft + 1 := rfl
theorem registerOne_nextRight : (s.registerOne b e).nextRight = s.nextRight + 1 := rfl
theorem registerOne_queue : (s.registerOne b e).queue =
    .right s.nextRight :: .left s.nextLeft :: s.queue := rfl

theorem registerOne_leftEnd_new : (s.registerOne b e).leftEnd s.nextLeft = (sorted e).finish := by
  unfold leftEnd
  rw [registerOne_lefts_new]
  simp only
  rw [registerOne_rights_new]

theorem registerOne_seg_new : (s.registerOne b e).seg s.nextLeft = sorted e := by
  unfold seg
  rw [registerOne_lefts_new, registerOne_leftEnd_new]

variable {s} (h : s.WF)

include h

theorem registerOne_leftEnd_old {i : Nat} (hi : i < s.nextLeft) :
    (s.registerOne b e).leftEnd i = s.leftEnd i := by
  unfold leftEnd
  rw [registerOne_lefts_old s b e hi, registerOne_rights_old s b e (h.leftRight i hi).1]

theorem registerOne_seg_old {i : Nat} (hi : i < s.nextLeft) :
    (s.registerOne b e).seg i = s.seg i := by
  unfold seg
  rw [registerOne_lefts_old s b e hi, registerOne_leftEnd_old b e h hi]

theorem registerOne_segs (b' : Bool) :
    (s.registerOne b e).segs b' = s.segs b' ++ (if b = b' then [sorted e] else []) := by
  unfold segs
  rw [registerOne_nextLeft, List.range_succ, List.filter_append, List.map_append]
  congr 1
  · rw [List.filter_congr (q := fun i => decide ((s.lefts i).fromTest = b'))]
    · refine List.map_congr_left fun i hi => ?_
      exact registerOne_seg_old b e h (List.mem_range.mp (List.mem_filter.mp hi).1)
    · intro i hi
      rw [registerOne_lefts_old s b e (List.mem_range.mp hi)]
  · by_cases hb : b = b'
    · simp [registerOne_lefts_new, hb, registerOne_seg_new]
    · simp [registerOne_lefts_new, hb]

end one

theorem Fresh.registerOne {s : State K} (h : s.Fresh) (b : Bool) {e : SegmentEndpoints K}
    (he : e.1 ≠ e.2) : (s.registerOne b e).Fresh := by
  have hw := h.wf
  have hn := h.nextRight
  have split : ∀ {P : Nat → Prop}, (∀ i < s.nextLeft, P i) → P s.nextLeft →
      ∀ i < (s.registerOne b e).nextLeft, P i := by
    intro P h1 h2 i hi
    rw [registerOne_nextLeft] at hi
    rcases Nat.lt_succ_iff_lt_or_eq.mp hi with hi | rfl
    · exact h1 i hi
    · exact h2
  have newRight : (s.registerOne b e).rights s.nextLeft =
      { start := (sorted e).finish, left := s.nextLeft, originalStart := (sorted e).finish } := by
    rw [← hn]
    simpa [hn] using registerOne_rights_new s b e
  refine ⟨⟨?_, ?_, ?_, ?_, ?_, ?_⟩, ?_, ?_, ?_, ?_, ?_, ?_, ?_, ?_, ?_, ?_⟩
  · refine split (fun i hi => ?_) ?_
    · rw [registerOne_lefts_old s b e hi, registerOne_nextRight,
        registerOne_rights_old s b e (hw.leftRight i hi).1]
      exact ⟨(hw.leftRight i hi).1.trans (Nat.lt_succ_self _), (hw.leftRight i hi).2⟩
    · rw [registerOne_lefts_new]
      simp only
      rw [registerOne_rights_new, registerOne_nextRight]
      exact ⟨Nat.lt_succ_self _, rfl⟩
  · intro r hr
    rw [registerOne_nextRight] at hr
    rcases Nat.lt_succ_iff_lt_or_eq.mp hr with hr | rfl
    · rw [registerOne_rights_old s b e hr, registerOne_lefts_old s b e (hw.rightLeft r hr).1]
      exact ⟨(hw.rightLeft r hr).1.trans (Nat.lt_succ_self _), (hw.rightLeft r hr).2⟩
    · rw [registerOne_rights_new]
      simp only
      rw [registerOne_lefts_new]
      exact ⟨Nat.lt_succ_self _, rfl⟩
  · refine split (fun i hi => ?_) ?_
    · rw [registerOne_lefts_old s b e hi, registerOne_leftEnd_old b e hw hi]
      exact hw.lt i hi
    · rw [registerOne_lefts_new, registerOne_leftEnd_new]
      exact sorted_lt he
  · intro i hi
    rw [registerOne_queue] at hi
    rcases List.mem_cons.mp hi with hi | hi
    · cases hi
    · rcases List.mem_cons.mp hi with hi | hi
      · cases hi; exact Nat.lt_succ_self _
      · exact (hw.queueLeft i hi).trans (Nat.lt_succ_self _)
  · intro i hi
    rw [registerOne_queue] at hi
    rcases List.mem_cons.mp hi with hi | hi
    · cases hi; exact Nat.lt_succ_self _
    · rcases List.mem_cons.mp hi with hi | hi
      · cases hi
      · exact (hw.queueRight i hi).trans (Nat.lt_succ_self _)
  · rw [registerOne_queue]
    refine List.nodup_cons.mpr ⟨?_, List.nodup_cons.mpr ⟨?_, hw.nodup⟩⟩
    · intro hm
      rcases List.mem_cons.mp hm with hm | hm
      · cases hm
      · exact lt_irrefl _ (hw.queueRight _ hm)
    · intro hm
      exact lt_irrefl _ (hw.queueLeft _ hm)
  · rw [registerOne_queue, registerOne_nextLeft, List.length_cons, List.length_cons, h.length]
    ring
  · rw [registerOne_nextRight, registerOne_nextLeft, hn]
  · refine split (fun i hi => ?_) ?_
    · rw [registerOne_lefts_old s b e hi]; exact h.right i hi
    · rw [registerOne_lefts_new]; exact hn
  · refine split (fun i hi => ?_) ?_
    · rw [registerOne_queue]; simp [h.lefts i hi]
    · rw [registerOne_queue]; simp
  · refine split (fun i hi => ?_) ?_
    · rw [registerOne_queue]; simp [h.rights i hi]
    · rw [registerOne_queue, hn]; simp
  · refine split (fun i hi => ?_) ?_
    · rw [registerOne_lefts_old s b e hi]; exact h.originalStart i hi
    · rw [registerOne_lefts_new]
  · refine split (fun i hi => ?_) ?_
    · rw [registerOne_rights_old s b e (hn ▸ hi)]; exact h.originalEnd i hi
    · rw [newRight]
  · refine split (fun i hi => ?_) ?_
    · rw [registerOne_lefts_old s b e hi]; exact h.relation i hi
    · rw [registerOne_lefts_new]
  · refine split (fun i hi => ?_) ?_
    · rw [registerOne_lefts_old s b e hi]; exact h.overlapKind i hi
    · rw [registerOne_lefts_new]
  · refine split (fun i hi => ?_) ?_
    · rw [registerOne_lefts_old s b e hi]; exact h.other i hi
    · rw [registerOne_lefts_new]

theorem Fresh.register {s : State K} (h : s.Fresh) (b : Bool) {l : List (SegmentEndpoints K)}
    (hl : ∀ e ∈ l, e.1 ≠ e.2) : (s.register b l).Fresh := by
  unfold State.register
  induction l generalizing s with
  | nil => exact h
  | cons e l ih =>
    exact ih (h.registerOne b (hl e (by simp))) fun e' he' => hl e' (by simp [he'])

theorem Fresh.segs_register {s : State K} (h : s.Fresh) (b : Bool) {l : List (SegmentEndpoints K)}
    (hl : ∀ e ∈ l, e.1 ≠ e.2) (b' : Bool) :
    (s.register b l).segs b' = s.segs b' ++ (if b = b' then l.map sorted else []) := by
  unfold State.register
  induction l generalizing s with
  | nil => simp
  | cons e l ih =>
    rw [List.foldl_cons, ih (h.registerOne b (hl e (by simp))) fun e' he' => hl e' (by simp [he']),
      registerOne_segs b e h.wf]
    by_cases hb : b = b' <;> simp [hb]

/-- Two segments of one operand share more than a point. -/
theorem clash_iff (s : State K) : Clash s ↔
    ∃ b, ¬ (s.segs b).Pairwise (fun u v => (u.pts ∩ v.pts).Subsingleton) := by
  have key : ∀ b, (s.segs b).Pairwise (fun u v => (u.pts ∩ v.pts).Subsingleton) ↔
      ∀ i j, i < j → j < s.nextLeft → (s.lefts i).fromTest = b → (s.lefts j).fromTest = b →
        ((s.seg i).pts ∩ (s.seg j).pts).Subsingleton := by
    intro b
    unfold segs
    rw [List.pairwise_map, List.pairwise_filter, List.pairwise_iff_getElem]
    simp only [List.getElem_range, List.length_range, decide_eq_true_eq]
    constructor
    · intro h i j hij hj
      exact h i j (hij.trans hj) hj hij
    · intro h i j _ hj hij
      exact h i j hij hj
  constructor
  · rintro ⟨a, c, ha, hc, hac, hf, hn⟩
    refine ⟨(s.lefts a).fromTest, fun hp => ?_⟩
    rw [key] at hp
    rcases Nat.lt_or_gt_of_ne hac with h | h
    · exact Set.not_subsingleton_iff.mpr hn (hp a c h hc rfl hf)
    · refine Set.not_subsingleton_iff.mpr hn ?_
      rw [Set.inter_comm]
      exact hp c a h ha hf rfl
  · rintro ⟨b, hb⟩
    rw [key] at hb
    push Not at hb
    obtain ⟨i, j, hij, hj, h1, h2, h3⟩ := hb
    exact ⟨i, j, hij.trans hj, hj, hij.ne, h2.trans h1.symm, h3⟩

end Orient.State

namespace Orient

variable {K : Type} [Field K] [LinearOrder K] [IsStrictOrderedRing K]

open Segment

/-- The segment with the given endpoints. -/
def ofEndpoints (e : SegmentEndpoints K) : Segment K := ⟨e.1, e.2⟩

theorem Segment.nondegenerate_iff (u : Segment K) : u.Nondegenerate ↔ u.pts.Nontrivial := by
  constructor
  · intro h
    exact ⟨u.start, start_mem u, u.finish, finish_mem u, h⟩
  · rintro ⟨x, ⟨t, -, -, rfl⟩, y, ⟨t', -, -, rfl⟩, hxy⟩ e
    refine hxy ?_
    rw [show u.start = u.finish from e]
    simp [lerp]

/-- The endpoints `l` are those of the segments `G`, in some order and with some orientation. -/
def Matches (l : List (SegmentEndpoints K)) (G : List (Segment K)) : Prop :=
  (l.map (fun e => (ofEndpoints e).pts)).Perm (G.map Segment.pts)

theorem Matches.refl (l : List (SegmentEndpoints K)) : Matches l (l.map ofEndpoints) := by
  unfold Matches
  rw [List.map_map]
  exact List.Perm.refl _

theorem Matches.append {l l' : List (SegmentEndpoints K)} {G G' : List (Segment K)}
    (h : Matches l G) (h' : Matches l' G') : Matches (l ++ l') (G ++ G') := by
  unfold Matches at *
  rw [List.map_append, List.map_append]
  exact List.Perm.append h h'

theorem Matches.ne {l : List (SegmentEndpoints K)} {G : List (Segment K)} (h : Matches l G)
    (hG : ∀ u ∈ G, u.Nondegenerate) : ∀ e ∈ l, e.1 ≠ e.2 := by
  intro e he
  have h1 : (ofEndpoints e).pts ∈ G.map Segment.pts :=
    h.mem_iff.mp (List.mem_map_of_mem (f := fun e => (ofEndpoints e).pts) he)
  obtain ⟨u, hu, hp⟩ := List.mem_map.mp h1
  have h2 : (ofEndpoints e).Nondegenerate := by
    rw [nondegenerate_iff, ← hp, ← nondegenerate_iff]
    exact hG u hu
  exact h2

theorem map_pts_sorted (l : List (SegmentEndpoints K)) :
    (l.map State.sorted).map Segment.pts = l.map (fun e => (ofEndpoints e).pts) := by
  rw [List.map_map]
  exact List.map_congr_left fun e _ => State.pts_sorted e

/-- No two segments of the list have more than a point in common. -/
def Apart (l : List (Segment K)) : Prop :=
  l.Pairwise (fun u v => (u.pts ∩ v.pts).Subsingleton)

theorem apart_map (l : List (Segment K)) :
    Apart l ↔ (l.map Segment.pts).Pairwise (fun S T => (S ∩ T).Subsingleton) := by
  rw [List.pairwise_map]; rfl

theorem apart_of_perm {l l' : List (Segment K)}
    (h : (l.map Segment.pts).Perm (l'.map Segment.pts)) : Apart l ↔ Apart l' := by
  rw [apart_map, apart_map]
  exact h.pairwise_iff fun {S T} h => by rw [Set.inter_comm]; exact h

theorem segsPts_of_perm {l l' : List (Segment K)}
    (h : (l.map Segment.pts).Perm (l'.map Segment.pts)) : segsPts l = segsPts l' := by
  have key : ∀ (l : List (Segment K)) (x : Point K),
      x ∈ segsPts l ↔ ∃ S ∈ l.map Segment.pts, x ∈ S := by
    intro l x
    simp [segsPts]
  ext x
  rw [key, key]
  constructor
  · rintro ⟨S, hS, hx⟩; exact ⟨S, h.mem_iff.mp hS, hx⟩
  · rintro ⟨S, hS, hx⟩; exact ⟨S, h.mem_iff.mpr hS, hx⟩

/-- The heap for a goal and a test, each given by segments. -/
structure Registered (s : State K) (goal test : List (Segment K)) : Prop where
  fresh : s.Fresh
  goal : ((s.segs false).map Segment.pts).Perm (goal.map Segment.pts)
  test : ((s.segs true).map Segment.pts).Perm (test.map Segment.pts)

theorem Registered.empty : Registered (State.empty : State K) [] [] :=
  ⟨.empty, by simp [State.segs_empty], by simp [State.segs_empty]⟩

theorem Registered.addGoal {s : State K} {G T : List (Segment K)} (h : Registered s G T)
    {l : List (SegmentEndpoints K)} {E : List (Segment K)} (hl : Matches l E)
    (hE : ∀ u ∈ E, u.Nondegenerate) : Registered (s.register false l) (G ++ E) T := by
  have hn := hl.ne hE
  refine ⟨h.fresh.register false hn, ?_, ?_⟩
  · rw [h.fresh.segs_register false hn, List.map_append, List.map_append]
    refine List.Perm.append h.goal ?_
    simp only [if_true]
    rw [map_pts_sorted]
    exact hl
  · rw [h.fresh.segs_register false hn]
    simpa using h.test

theorem Registered.addTest {s : State K} {G T : List (Segment K)} (h : Registered s G T)
    {l : List (SegmentEndpoints K)} {E : List (Segment K)} (hl : Matches l E)
    (hE : ∀ u ∈ E, u.Nondegenerate) : Registered (s.register true l) G (T ++ E) := by
  have hn := hl.ne hE
  refine ⟨h.fresh.register true hn, ?_, ?_⟩
  · rw [h.fresh.segs_register true hn]
    simpa using h.goal
  · rw [h.fresh.segs_register true hn, List.map_append, List.map_append]
    refine List.Perm.append h.test ?_
    simp only [if_true]
    rw [map_pts_sorted]
    exact hl

theorem registered {goal test : List (SegmentEndpoints K)} {G T : List (Segment K)}
    (hg : Matches goal G) (ht : Matches test T) (hG : ∀ u ∈ G, u.Nondegenerate)
    (hT : ∀ u ∈ T, u.Nondegenerate) :
    Registered ((State.empty.register false goal).register true test) G T :=
  (Registered.empty.addGoal hg hG).addTest ht hT

theorem Registered.goalPts {s : State K} {G T : List (Segment K)} (h : Registered s G T) :
    s.operand false = segsPts G := by
  rw [State.operand_eq, segsPts_of_perm h.goal]

theorem Registered.testPts {s : State K} {G T : List (Segment K)} (h : Registered s G T) :
    s.operand true = segsPts T := by
  rw [State.operand_eq, segsPts_of_perm h.test]

theorem Registered.clash {s : State K} {G T : List (Segment K)} (h : Registered s G T) :
    eventsQueue.Clash s ↔ ¬ Apart G ∨ ¬ Apart T := by
  rw [State.clash_iff, ← apart_of_perm h.goal, ← apart_of_perm h.test]
  simp [Apart]

theorem Registered.no_clash {s : State K} {G T : List (Segment K)} (h : Registered s G T)
    (hg : SegmentsValid G) (ht : SegmentsValid T) : ¬ eventsQueue.Clash s := by
  rw [h.clash]
  rintro (h | h)
  · exact h hg.2
  · exact h ht.2

/-! ### what is registered for the geometries -/

theorem toSegmentsEndpoints_ofEndpoints (m : Multisegment K) :
    (multisegment.toSegmentsEndpoints m).map ofEndpoints = m.segments := by
  unfold multisegment.toSegmentsEndpoints
  rw [List.map_map]
  exact List.map_id' _

theorem edges_ofEndpoints (c : Contour K) :
    (contour.edges c.vertices).map ofEndpoints = c.edgeList := by
  unfold contour.edges Contour.edgeList
  rcases List.eq_nil_or_concat c.vertices with h | ⟨l, a, h⟩
  · simp [h]
  · rw [h]
    simp only [List.concat_eq_append, List.length_append, List.length_singleton,
      Nat.add_sub_cancel, List.rotate_append_length_eq, List.getLast?_append, List.getLast?_singleton,
      Option.some_or]
    refine List.ext_getElem (by simp) fun i h1 h2 => ?_
    have hi : i < l.length + 1 := by simpa using h1
    simp only [List.getElem_map, List.getElem_zip, List.getElem_zipWith, ofEndpoints]
    congr 1
    cases i with
    | zero => rfl
    | succ i =>
      have : i < l.length := by omega
      simp [this]

theorem toEdgesEndpoints_ofEndpoints (c : Contour K) :
    (contour.toEdgesEndpoints c).map ofEndpoints = c.edgeList := edges_ofEndpoints c

/-- The edges with the orientation the library wants: those of the contour or all of them reversed. -/
theorem toOrientedEdgesEndpoints_ofEndpoints {c : Contour K} {context : Context K} {clockwise : Bool}
    {l : List (SegmentEndpoints K)}
    (h : contour.toOrientedEdgesEndpoints c context clockwise = .ok l) :
    l.map ofEndpoints = c.edgeList ∨ l.map ofEndpoints = (c.edgeList.map Segment.reverse).reverse := by
  unfold contour.toOrientedEdgesEndpoints at h
  cases ho : contour.orientation c context with
  | error e => rw [ho] at h; cases h
  | ok o =>
    rw [ho] at h
    have h' : (if o = (if clockwise then .clockwise else .counterclockwise)
        then contour.edges c.vertices
        else (contour.edges c.vertices).reverse.map Prod.swap) = l := Except.ok.inj h
    rw [← h', ← edges_ofEndpoints]
    by_cases ho' : o = (if clockwise then .clockwise else .counterclockwise)
    · rw [if_pos ho']
      exact .inl rfl
    · rw [if_neg ho']
      refine .inr ?_
      rw [List.map_reverse, List.map_reverse, List.map_map, List.map_map]
      rfl

theorem matches_segments (m : Multisegment K) :
    Matches (multisegment.toSegmentsEndpoints m) m.segments := by
  have h := Matches.refl (multisegment.toSegmentsEndpoints m)
  rwa [toSegmentsEndpoints_ofEndpoints] at h

theorem matches_edges (c : Contour K) : Matches (contour.toEdgesEndpoints c) c.edgeList := by
  have h := Matches.refl (contour.toEdgesEndpoints c)
  rwa [toEdgesEndpoints_ofEndpoints] at h

theorem matches_oriented {c : Contour K} {context : Context K} {clockwise : Bool}
    {l : List (SegmentEndpoints K)}
    (h : contour.toOrientedEdgesEndpoints c context clockwise = .ok l) : Matches l c.edgeList := by
  have h1 := Matches.refl l
  rcases toOrientedEdgesEndpoints_ofEndpoints h with h' | h' <;> rw [h'] at h1
  · exact h1
  · unfold Matches at h1 ⊢
    refine h1.trans ?_
    rw [List.map_reverse, List.map_map]
    refine (List.reverse_perm _).trans (.of_eq ?_)
    exact List.map_congr_left fun u _ => pts_reverse u

end Orient
