import Verif.Lemmas.Sweep.Effort
import Verif.Props.Sweeping
import Verif.Props.MultiCheck
import Mathlib.Data.Nat.Log

/-! C67: how many events are handled. -/

set_option linter.unusedSectionVars false

namespace Orient.Props

open eventsQueue State Segment

variable {K : Type} [Field K] [LinearOrder K] [IsStrictOrderedRing K]

/-! ### contacts -/

/-- Two segments meet in at most two points. -/
theorem metAt_finite {u v : Segment K} (hu : u.Nondegenerate) (hv : v.Nondegenerate) :
    {p | u.MetAt v p}.Finite ∧ {p | u.MetAt v p}.ncard ≤ 2 := by
  by_cases hc : u.Collinear v
  · have hs : {p | u.MetAt v p} ⊆ {v.start, v.finish} := by
      intro p hp
      have := ((metAt_iff hu hv).mp hp).2.2.resolve_left fun hn => hn hc
      exact this
    have hf : ({v.start, v.finish} : Set (Point K)).Finite := Set.toFinite _
    exact ⟨hf.subset hs, (Set.ncard_le_ncard hs hf).trans
      ((Set.ncard_insert_le _ _).trans (by rw [Set.ncard_singleton]))⟩
  · have hs : {p | u.MetAt v p}.Subsingleton := by
      intro p hp q hq
      by_contra hne
      exact hc (collinear_of_nontrivial hv ⟨p, ⟨hp.1, hp.2.2.1⟩, q, ⟨hq.1, hq.2.2.1⟩, hne⟩)
    exact ⟨hs.finite, ((Set.ncard_le_one hs.finite).mpr fun a ha b hb => hs ha hb).trans (by norm_num)⟩

theorem contactPoints_finite {l : List (Segment K)} {u : Segment K} (hu : u.Nondegenerate)
    (hl : ∀ v ∈ l, v.Nondegenerate) :
    (contactPoints l u).Finite ∧ (contactPoints l u).ncard ≤ 2 * l.length := by
  induction l with
  | nil =>
    have : contactPoints ([] : List (Segment K)) u = ∅ := by
      ext p; simp [contactPoints]
    rw [this]
    simp
  | cons v l ih =>
    obtain ⟨h1, h2⟩ := ih fun w hw => hl w (List.mem_cons_of_mem _ hw)
    obtain ⟨h3, h4⟩ := metAt_finite hu (hl v List.mem_cons_self)
    have : contactPoints (v :: l) u = {p | u.MetAt v p} ∪ contactPoints l u := by
      ext p; simp [contactPoints]
    rw [this]
    refine ⟨h3.union h1, (Set.ncard_union_le _ _).trans ?_⟩
    rw [List.length_cons]
    omega

/-- C67: there are at most two contacts per ordered pair of segments. -/
theorem C67_contacts_le {l : List (Segment K)} (hl : ∀ v ∈ l, v.Nondegenerate) :
    contacts l ≤ 2 * l.length ^ 2 := by
  unfold contacts
  have : ∀ (k : List (Segment K)), (∀ v ∈ k, v.Nondegenerate) →
      (k.map fun u => (contactPoints l u).ncard).sum ≤ k.length * (2 * l.length) := by
    intro k hk
    induction k with
    | nil => simp
    | cons u k ih =>
      have h1 := ih fun v hv => hk v (List.mem_cons_of_mem _ hv)
      have h2 := (contactPoints_finite (hk u List.mem_cons_self) hl).2
      rw [List.map_cons, List.sum_cons, List.length_cons, Nat.add_mul, Nat.one_mul]
      omega
  refine (this l hl).trans (le_of_eq ?_)
  ring

/-- C67: segments which meet only in common endpoints have no contacts. -/
theorem C67_neat {l : List (Segment K)} (h : Neat l) : contacts l = 0 := by
  unfold contacts
  rw [List.sum_eq_zero]
  intro n hn
  obtain ⟨u, hu, rfl⟩ := List.mem_map.mp hn
  have : contactPoints l u = ∅ := by
    ext p
    simp only [contactPoints, Set.mem_ofPred_eq, Set.mem_empty_iff_false, iff_false]
    rintro ⟨v, hv, h1, h2, h3, h4⟩
    by_cases he : u = v
    · subst he
      exact h4 u h1 h2 subset_rfl subset_rfl
    · haveI : Std.Symm (fun u v : Segment K => ∀ p ∈ u.pts ∩ v.pts, u.IsEndpoint p ∧ v.IsEndpoint p) :=
        ⟨fun a b hab q hq => (hab q ⟨hq.2, hq.1⟩).symm⟩
      exact h2 (List.Pairwise.forall h hu hv he p ⟨h1, h3⟩).1
  rw [this, Set.ncard_empty]

/-! ### the loop -/

theorem allSegs_contacts {s : State K} {G T : List (Segment K)} (h : Registered s G T) :
    s.nextLeft = G.length + T.length ∧ contacts s.allSegs = contacts (G ++ T) := by
  have hp : (s.allSegs.map Segment.pts).Perm ((G ++ T).map Segment.pts) := by
    rw [List.map_append]
    refine (s.allSegs_perm.map Segment.pts).trans ?_
    rw [List.map_append]
    exact h.goal.append h.test
  constructor
  · have := hp.length_eq
    rw [List.length_map, List.length_map, List.length_append] at this
    rw [← this, allSegs, List.length_map, List.length_range]
  · refine contacts_congr (fun u hu => ?_) hp
    obtain ⟨i, hi, rfl⟩ := mem_allSegs.mp hu
    exact h.fresh.wf.nondegenerate hi

/-- C67: with `n` registered segments and `k` contacts the loop of `sweep` makes at most
`2 (n + k)` iterations and emits at most that many events. -/
theorem C67_at_most (linear : Bool) {context : Context K} (hc : context.Exact) (stopX : K)
    {s : State K} {G T : List (Segment K)} (hreg : Registered s G T) {fuel : Nat}
    (hf : 2 * (G.length + T.length + contacts (G ++ T)) < fuel) :
    sweepLoop linear context stopX fuel s [] ((peek? context s).map s.evStart) []
      = sweep linear context stopX s ∧
    (sweep linear context stopX s).2 ≠ .error .outOfFuel ∧
    (sweep linear context stopX s).1.length ≤ 2 * (G.length + T.length + contacts (G ++ T)) := by
  obtain ⟨e1, e2⟩ := allSegs_contacts hreg
  obtain ⟨h1, h2⟩ := sweep_length_le linear hc stopX hreg.fresh (closeGroup_length linear context)
  rw [e1, e2] at h1 h2
  have h3 := h1 fuel hf
  set start := (peek? context s).map s.evStart
  have more : ∀ m k, (sweepLoop linear context stopX m s [] start []).2 ≠ .error .outOfFuel →
      sweepLoop linear context stopX (m + k) s [] start [] =
        sweepLoop linear context stopX m s [] start [] := fun m k hm =>
    sweepLoop_more linear context stopX (initial context s) hm k
  have h4 := sweep_ne_outOfFuel linear hc stopX hreg.fresh.wf hreg.fresh.length
  refine ⟨?_, h4, ?_⟩
  · have h4' : (sweepLoop linear context stopX (enoughFuel s) s [] start []).2 ≠ .error .outOfFuel := h4
    change _ = sweepLoop linear context stopX (enoughFuel s) s [] start []
    rw [← more fuel (enoughFuel s) h3, ← more (enoughFuel s) fuel h4', Nat.add_comm]
  · rcases sweepLoop_ends linear context stopX (enoughFuel s) (initial context s) [] _ .refl _ rfl
      with ⟨ems, d, hr, -, he, -⟩ | ⟨ems, ems', d, e, hr, hs, he, -⟩ | he
    · rw [List.nil_append] at he
      have := h2 ems d hr
      change (sweepLoop linear context stopX (enoughFuel s) s [] start []).1.length ≤ _
      have he' : (sweepLoop linear context stopX (enoughFuel s) s [] start []).1 = _ := he
      rw [he', List.length_append, closeGroup_length]
      omega
    · rw [List.nil_append] at he
      have := h2 ems d hr
      change (sweepLoop linear context stopX (enoughFuel s) s [] start []).1.length ≤ _
      have he' : (sweepLoop linear context stopX (enoughFuel s) s [] start []).1 = _ := he
      rw [he', List.length_append]
      obtain ⟨e', t, start', group, it, -⟩ := sweepStep_some hs
      have : ems'.length ≤ d.group.length := by
        rcases it.closed with ⟨-, e3, -⟩ | ⟨-, e3, -⟩
        · rw [e3]; simp
        · rw [e3, closeGroup_length]
      omega
    · exact absurd he h4

/-- C67: if the segments of each operand have at most a point in common pairwise and all are to be
passed, then exactly `2 (n + k)` events are handled. -/
theorem C67_exactly (linear : Bool) {context : Context K} (hc : context.Exact) {stopX : K}
    {s : State K} {G T : List (Segment K)} (h : Registered s G T) (hG : SegmentsValid G)
    (hT : SegmentsValid T) (hg : ∀ p ∈ segsPts G, p.x ≤ stopX) (ht : ∀ p ∈ segsPts T, p.x ≤ stopX) :
    (sweep linear context stopX s).1.length = 2 * (G.length + T.length + contacts (G ++ T)) := by
  have hcl := h.no_clash hG hT
  obtain ⟨f, hf⟩ : ∃ f, (sweep linear context stopX s).2 = .ok f := by
    rcases sweep_ends linear hc stopX h.fresh.wf h.fresh.length with
      ⟨ems, d, -, -, -, h4⟩ | ⟨-, h2⟩
    · exact ⟨_, h4⟩
    · exact absurd h2 hcl
  obtain ⟨e1, e2⟩ := allSegs_contacts h
  rw [sweep_length_eq linear hc stopX h.fresh hcl hf ?_ (closeGroup_length linear context), e1, e2]
  intro b
  cases b
  · rw [h.goalPts]; exact hg
  · rw [h.testPts]; exact ht

/-! ### the documented complexity -/

/-- The events over which `multisegment_in_multisegment` iterates. -/
def multisegmentEvents (left right : Multisegment K) (context : Context K) : List (Emitted K) :=
  if box.disjointWith (context.segmentsBox right.segments) (context.segmentsBox left.segments) then []
  else (sweep true context
    (min (context.segmentsBox right.segments).maxX (context.segmentsBox left.segments).maxX)
    ((State.empty.register false (multisegment.toSegmentsEndpoints right)).register true
      (multisegment.toSegmentsEndpoints left))).1

/-- The answer of `multisegment_in_multisegment` is computed from these events. -/
theorem multisegmentEvents_spec (left right : Multisegment K) (context : Context K) :
    planar.multisegmentInMultisegment left right context = .ok .disjoint ∨
    ∃ r, planar.multisegmentInMultisegment left right context
      = processing.processOpenLinearQueue context (multisegmentEvents left right context, r) := by
  unfold planar.multisegmentInMultisegment multisegment.relateMultisegment multisegmentEvents
  simp only
  split_ifs
  · exact .inl rfl
  · exact .inr ⟨_, rfl⟩

/-- C67: `multisegment_in_multisegment` handles at most two events per segment and per contact. -/
theorem C67_multisegment_in_multisegment {context : Context K} (hc : context.Exact)
    {left right : Multisegment K} (hl : ∀ u ∈ left.segments, u.Nondegenerate)
    (hr : ∀ u ∈ right.segments, u.Nondegenerate) :
    (multisegmentEvents left right context).length ≤
      2 * (right.segments.length + left.segments.length
        + contacts (right.segments ++ left.segments)) := by
  unfold multisegmentEvents
  split_ifs
  · simp
  · exact (C67_at_most true hc _ (registered (matches_segments right) (matches_segments left) hr hl)
      (Nat.lt_succ_self _)).2.2

/-- C67: no more than two events per segment if segments meet only in common endpoints. -/
theorem C67_linear {context : Context K} (hc : context.Exact)
    {left right : Multisegment K} (hl : ∀ u ∈ left.segments, u.Nondegenerate)
    (hr : ∀ u ∈ right.segments, u.Nondegenerate) (hn : Neat (right.segments ++ left.segments)) :
    (multisegmentEvents left right context).length ≤
      2 * (right.segments.length + left.segments.length) := by
  have := C67_multisegment_in_multisegment hc hl hr
  rwa [C67_neat hn, Nat.add_zero] at this

/-- C67: never more than quadratically many events. -/
theorem C67_quadratic {context : Context K} (hc : context.Exact)
    {left right : Multisegment K} (hl : ∀ u ∈ left.segments, u.Nondegenerate)
    (hr : ∀ u ∈ right.segments, u.Nondegenerate) :
    let n := right.segments.length + left.segments.length
    (multisegmentEvents left right context).length ≤ 2 * n + 4 * n ^ 2 := by
  intro n
  have h1 := C67_multisegment_in_multisegment hc hl hr
  have h2 : contacts (right.segments ++ left.segments) ≤ 2 * n ^ 2 := by
    have := C67_contacts_le (l := right.segments ++ left.segments) (fun v hv => by
      rcases List.mem_append.mp hv with hv | hv
      · exact hr v hv
      · exact hl v hv)
    rwa [List.length_append] at this
  change _ ≤ 2 * (n + _) at h1
  omega

/-- Horizontal segments. -/
def gridRows (K : Type) [Field K] [LinearOrder K] (n : Nat) : Multisegment K :=
  ⟨(List.range n).map fun j : Nat => ⟨⟨0, (j : K) + 1⟩, ⟨(n : K), (j : K) + 1⟩⟩⟩

/-- Vertical segments. -/
def gridColumns (K : Type) [Field K] [LinearOrder K] (n : Nat) : Multisegment K :=
  ⟨(List.range n).map fun i : Nat => ⟨⟨(i : K) + 1, 0⟩, ⟨(i : K) + 1, (n : K) + 1⟩⟩⟩

theorem mem_row {n j : Nat} {p : Point K}
    (h : p ∈ (⟨⟨0, (j : K) + 1⟩, ⟨(n : K), (j : K) + 1⟩⟩ : Segment K).pts) :
    0 ≤ p.x ∧ p.x ≤ n ∧ p.y = (j : K) + 1 := by
  obtain ⟨t, t0, t1, rfl⟩ := h
  have hn : (0 : K) ≤ n := Nat.cast_nonneg n
  simp only [lerp]
  refine ⟨by nlinarith, by nlinarith, by ring⟩

theorem mem_column {n i : Nat} {p : Point K}
    (h : p ∈ (⟨⟨(i : K) + 1, 0⟩, ⟨(i : K) + 1, (n : K) + 1⟩⟩ : Segment K).pts) :
    p.x = (i : K) + 1 ∧ 0 ≤ p.y ∧ p.y ≤ (n : K) + 1 := by
  obtain ⟨t, t0, t1, rfl⟩ := h
  have hn : (0 : K) ≤ n := Nat.cast_nonneg n
  simp only [lerp]
  refine ⟨by ring, by nlinarith, by nlinarith⟩

theorem node_mem_row {n i j : Nat} (hi : i < n) :
    (⟨(i : K) + 1, (j : K) + 1⟩ : Point K) ∈
      (⟨⟨0, (j : K) + 1⟩, ⟨(n : K), (j : K) + 1⟩⟩ : Segment K).pts := by
  have hn : (0 : K) < n := Nat.cast_pos.mpr (by omega)
  have hi' : (i : K) + 1 ≤ n := by exact_mod_cast hi
  refine ⟨((i : K) + 1) / n, by positivity, (div_le_one hn).mpr hi', ?_⟩
  simp only [lerp, Point.mk.injEq]
  constructor
  · field_simp
    ring
  · ring

theorem node_mem_column {n i j : Nat} (hj : j < n) :
    (⟨(i : K) + 1, (j : K) + 1⟩ : Point K) ∈
      (⟨⟨(i : K) + 1, 0⟩, ⟨(i : K) + 1, (n : K) + 1⟩⟩ : Segment K).pts := by
  have hn : (0 : K) < (n : K) + 1 := by positivity
  have hj' : (j : K) + 1 ≤ (n : K) + 1 := by exact_mod_cast Nat.succ_le_succ hj.le
  refine ⟨((j : K) + 1) / ((n : K) + 1), by positivity, (div_le_one hn).mpr hj', ?_⟩
  simp only [lerp, Point.mk.injEq]
  constructor
  · ring
  · field_simp
    ring

theorem gridRows_valid (n : Nat) : SegmentsValid (gridRows K n).segments := by
  constructor
  · intro u hu
    obtain ⟨j, hj, rfl⟩ := List.mem_map.mp hu
    have hn : (0 : K) < n := Nat.cast_pos.mpr (by have := List.mem_range.mp hj; omega)
    intro e
    have := congrArg Point.x e
    exact hn.ne this
  · simp only [gridRows]
    rw [List.pairwise_map]
    refine List.nodup_range.imp fun {i j} hij p hp => ?_
    have h1 := (mem_row hp.1).2.2
    have h2 := (mem_row hp.2).2.2
    exact absurd (by exact_mod_cast add_right_cancel (h1.symm.trans h2)) hij

theorem gridColumns_valid (n : Nat) : SegmentsValid (gridColumns K n).segments := by
  constructor
  · intro u hu
    obtain ⟨j, hj, rfl⟩ := List.mem_map.mp hu
    have hn : (0 : K) < (n : K) + 1 := by positivity
    intro e
    have := congrArg Point.y e
    exact hn.ne this
  · simp only [gridColumns]
    rw [List.pairwise_map]
    refine List.nodup_range.imp fun {i j} hij p hp => ?_
    have h1 := (mem_column hp.1).1
    have h2 := (mem_column hp.2).1
    exact absurd (by exact_mod_cast add_right_cancel (h1.symm.trans h2)) hij

theorem gridRows_length (n : Nat) : (gridRows K n).segments.length = n := by simp [gridRows]

theorem gridColumns_length (n : Nat) : (gridColumns K n).segments.length = n := by simp [gridColumns]

/-- Each of the vertical segments is met in `n` points. -/
theorem grid_contacts (n : Nat) :
    n * n ≤ contacts ((gridRows K n).segments ++ (gridColumns K n).segments) := by
  classical
  set l := (gridRows K n).segments ++ (gridColumns K n).segments with hl
  have hnd : ∀ v ∈ l, v.Nondegenerate := by
    intro v hv
    rcases List.mem_append.mp hv with hv | hv
    · exact (gridRows_valid n).1 v hv
    · exact (gridColumns_valid n).1 v hv
  have one : ∀ u ∈ (gridColumns K n).segments, n ≤ (contactPoints l u).ncard := by
    intro u hu
    have hu' : u.Nondegenerate := (gridColumns_valid n).1 u hu
    obtain ⟨i, hi, rfl⟩ := List.mem_map.mp hu
    rw [List.mem_range] at hi
    let f : Nat → Point K := fun j => ⟨(i : K) + 1, (j : K) + 1⟩
    have hf : Function.Injective f := by
      intro a b hab
      have := congrArg Point.y hab
      exact_mod_cast add_right_cancel (this : (a : K) + 1 = (b : K) + 1)
    have hsub : ((Finset.range n).image f : Set (Point K)) ⊆ contactPoints l
        ⟨⟨(i : K) + 1, 0⟩, ⟨(i : K) + 1, (n : K) + 1⟩⟩ := by
      intro p hp
      rw [Finset.mem_coe, Finset.mem_image] at hp
      obtain ⟨j, hj, rfl⟩ := hp
      rw [Finset.mem_range] at hj
      refine ⟨⟨⟨0, (j : K) + 1⟩, ⟨(n : K), (j : K) + 1⟩⟩, List.mem_append_left _
        (List.mem_map.mpr ⟨j, List.mem_range.mpr hj, rfl⟩), ?_⟩
      rw [metAt_iff hu' (hnd _ (List.mem_append_left _
        (List.mem_map.mpr ⟨j, List.mem_range.mpr hj, rfl⟩)))]
      refine ⟨⟨node_mem_column hj, ?_⟩, node_mem_row hi, .inl ?_⟩
      · have hj' : (j : K) < n := by exact_mod_cast hj
        have hj0 : (0 : K) ≤ j := Nat.cast_nonneg j
        rintro (e | e) <;> have e := congrArg Point.y e <;> simp only [f] at e
        · linarith
        · linarith
      · intro hc
        have := hc.1
        simp only [cross] at this
        have hn : (0 : K) < (n : K) + 1 := by positivity
        have hi0 : (0 : K) < (i : K) + 1 := by positivity
        nlinarith [mul_pos hn hi0]
    have hfin := (contactPoints_finite hu' hnd).1
    have := Set.ncard_le_ncard hsub hfin
    rw [Set.ncard_coe_finset, Finset.card_image_of_injective _ hf, Finset.card_range] at this
    exact this
  unfold contacts
  rw [hl, List.map_append, List.sum_append, ← hl]
  refine le_trans ?_ (Nat.le_add_left _ _)
  have : ∀ k : List (Segment K), (∀ u ∈ k, n ≤ (contactPoints l u).ncard) →
      k.length * n ≤ (k.map fun u => (contactPoints l u).ncard).sum := by
    intro k hk
    induction k with
    | nil => simp
    | cons u k ih =>
      have h1 := ih fun v hv => hk v (List.mem_cons_of_mem _ hv)
      have h2 := hk u List.mem_cons_self
      rw [List.map_cons, List.sum_cons, List.length_cons, Nat.add_mul, Nat.one_mul]
      omega
  have h := this _ one
  rwa [gridColumns_length] at h

/-- C67: for `n` horizontal and `n` vertical segments there are at least `2 n²` events. -/
theorem C67_grid {context : Context K} (hc : context.Exact) {n : Nat} (hn : 0 < n) :
    SegmentsValid (gridColumns K n).segments ∧ SegmentsValid (gridRows K n).segments ∧
    2 * (n + n + n * n) ≤
      (multisegmentEvents (gridColumns K n) (gridRows K n) context).length := by
  refine ⟨gridColumns_valid n, gridRows_valid n, ?_⟩
  have r0 : (gridRows K n).segments ≠ [] := by
    intro h; have := gridRows_length (K := K) n; rw [h] at this; simp at this; omega
  have c0 : (gridColumns K n).segments ≠ [] := by
    intro h; have := gridColumns_length (K := K) n; rw [h] at this; simp at this; omega
  have br := hc.segmentsBox _ r0
  have bc := hc.segmentsBox _ c0
  -- the last node
  have hlast : n - 1 < n := by omega
  have hnc : ((n - 1 : Nat) : K) + 1 = n := by
    have : n - 1 + 1 = n := by omega
    exact_mod_cast this
  have pr : (⟨((n - 1 : Nat) : K) + 1, ((0 : Nat) : K) + 1⟩ : Point K) ∈
      segsPts (gridRows K n).segments :=
    ⟨_, List.mem_map.mpr ⟨0, List.mem_range.mpr hn, rfl⟩, node_mem_row hlast⟩
  have pc : (⟨((n - 1 : Nat) : K) + 1, ((0 : Nat) : K) + 1⟩ : Point K) ∈
      segsPts (gridColumns K n).segments :=
    ⟨_, List.mem_map.mpr ⟨n - 1, List.mem_range.mpr hlast, rfl⟩, node_mem_column hn⟩
  have xr : ∀ p ∈ segsPts (gridRows K n).segments, p.x ≤ n := by
    rintro p ⟨u, hu, hp⟩
    obtain ⟨j, hj, rfl⟩ := List.mem_map.mp hu
    exact (mem_row hp).2.1
  have xc : ∀ p ∈ segsPts (gridColumns K n).segments, p.x ≤ n := by
    rintro p ⟨u, hu, hp⟩
    obtain ⟨i, hi, rfl⟩ := List.mem_map.mp hu
    rw [(mem_column hp).1]
    exact_mod_cast List.mem_range.mp hi
  have hstop : (n : K) ≤ min (context.segmentsBox (gridRows K n).segments).maxX
      (context.segmentsBox (gridColumns K n).segments).maxX := by
    have h1 := br.le_maxX _ pr
    have h2 := bc.le_maxX _ pc
    simp only [hnc] at h1 h2
    exact le_min h1 h2
  unfold multisegmentEvents
  rw [box.not_disjointWith br bc pr pc]
  simp only [Bool.false_eq_true, if_false]
  have hreg := registered (matches_segments (gridRows K n)) (matches_segments (gridColumns K n))
    (gridRows_valid n).1 (gridColumns_valid n).1
  rw [C67_exactly true hc hreg (gridRows_valid n) (gridColumns_valid n)
    (fun p hp => (xr p hp).trans hstop) (fun p hp => (xc p hp).trans hstop),
    gridRows_length, gridColumns_length]
  have := grid_contacts (K := K) n
  omega

/-- C67: the documented time complexity `O(n log n)` is wrong: for every constant there are valid
multisegments with `n` segments altogether for which more events are handled. -/
theorem C67_documented {context : Context K} (hc : context.Exact) (C : Nat) :
    ∃ left right : Multisegment K, SegmentsValid left.segments ∧ SegmentsValid right.segments ∧
      0 < left.segments.length + right.segments.length ∧
      C * (left.segments.length + right.segments.length)
          * (Nat.log 2 (left.segments.length + right.segments.length) + 1) <
        (multisegmentEvents left right context).length := by
  set m := 2 * C + 6 with hm
  obtain ⟨h1, h2, h3⟩ := C67_grid hc (n := 2 ^ m) (by positivity)
  refine ⟨_, _, h1, h2, ?_, lt_of_lt_of_le ?_ h3⟩
  · rw [gridColumns_length, gridRows_length]; positivity
  · rw [gridColumns_length, gridRows_length, ← two_mul, ← Nat.pow_succ',
      Nat.log_pow (by norm_num : 1 < 2)]
    have hC : C < 2 ^ C := Nat.lt_two_pow_self
    have e : 2 ^ m = 64 * (2 ^ C * 2 ^ C) := by
      rw [hm, pow_add, two_mul, pow_add]; ring
    have key : C * (m + 2) < 2 ^ m := by
      rw [e, hm]
      have h4 : 1 ≤ 2 ^ C := Nat.one_le_two_pow
      nlinarith
    rw [Nat.pow_succ, Nat.succ_eq_add_one]
    have hp : 0 < 2 ^ m := by positivity
    nlinarith

/-- There are such operands: a grid of three by three segments takes at least `30` events, two sides
of a triangle and the third one no more than `6`. -/
example : 30 ≤ (multisegmentEvents (gridColumns ℚ 3) (gridRows ℚ 3) reference.context).length :=
  (C67_grid reference.context_exact (n := 3) (by norm_num)).2.2

example : (multisegmentEvents (⟨[⟨⟨0, 0⟩, ⟨2, 0⟩⟩, ⟨⟨2, 0⟩, ⟨1, 2⟩⟩]⟩ : Multisegment ℚ)
    ⟨[⟨⟨1, 2⟩, ⟨0, 0⟩⟩]⟩ reference.context).length ≤ 6 :=
  C67_linear reference.context_exact
    (by intro u hu; unfold Segment.Nondegenerate; revert u; decide +kernel)
    (by intro u hu; unfold Segment.Nondegenerate; revert u; decide +kernel)
    (neat_of_check (by decide +kernel))

end Orient.Props
