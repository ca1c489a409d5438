import Verif.Lemmas.Sweep.Counts
import Verif.Lemmas.Sweep.Register
import Verif.Lemmas.SimpleEdges
import Verif.Props.PointInRegion
import Verif.Spec.Compound

/-! The number of edges of a contour below a point and the side of an edge on which the interior of the
contour lies. -/

set_option linter.unusedSectionVars false

namespace Orient

variable {K : Type} [Field K] [LinearOrder K] [IsStrictOrderedRing K]

open Segment

/-- The segment exists at the time. -/
def Segment.Live (ε t : K) (u : Segment K) : Prop := u.start.time ε < t ∧ t < u.finish.time ε

instance (ε t : K) (u : Segment K) : Decidable (u.Live ε t) := by
  unfold Segment.Live; infer_instance

/-- The number of segments below a point. -/
def lowers (ε t h : K) (l : List (Segment K)) : Nat :=
  l.countP fun u => decide (u.Live ε t ∧ u.height ε t < h)

theorem lowers_perm {ε t h : K} {l m : List (Segment K)} (hp : l.Perm m) :
    lowers ε t h l = lowers ε t h m := hp.countP_eq _

theorem lowers_append (ε t h : K) (l m : List (Segment K)) :
    lowers ε t h (l ++ m) = lowers ε t h l + lowers ε t h m := List.countP_append

theorem lowers_cons (ε t h : K) (u : Segment K) (l : List (Segment K)) :
    lowers ε t h (u :: l) = lowers ε t h l + if u.Live ε t ∧ u.height ε t < h then 1 else 0 := by
  simp [lowers, List.countP_cons]

theorem lowers_congr {ε t h t' h' : K} {l : List (Segment K)}
    (he : ∀ u ∈ l, (u.Live ε t ∧ u.height ε t < h) ↔ (u.Live ε t' ∧ u.height ε t' < h')) :
    lowers ε t h l = lowers ε t' h' l := by
  unfold lowers
  refine List.countP_congr fun u hu => ?_
  simpa using he u hu

theorem below_card (ε : K) (s : State K) (b : Bool) (t h : K) :
    (s.below ε b t h).card = lowers ε t h (s.segs b) := by
  unfold lowers State.segs
  rw [List.countP_map, List.countP_filter, List.countP_eq_length_filter]
  rw [← List.toFinset_card_of_nodup ((List.nodup_range).filter _)]
  congr 1
  ext i
  rw [State.mem_below]
  simp only [List.mem_toFinset, List.mem_filter, List.mem_range, Function.comp, Bool.and_eq_true,
    decide_eq_true_eq]
  constructor
  · rintro ⟨h1, ⟨h2, h3⟩, h4⟩
    exact ⟨h1, ⟨h3, h4⟩, h2⟩
  · rintro ⟨h1, ⟨h3, h4⟩, h2⟩
    exact ⟨h1, ⟨h2, h3⟩, h4⟩

/-- An edge from its lesser to its greater endpoint. -/
def Segment.up (e : Segment K) : Segment K := State.sorted (e.start, e.finish)

theorem Segment.pts_up (e : Segment K) : e.up.pts = e.pts := State.pts_sorted _

theorem Segment.up_lt {e : Segment K} (h : e.Nondegenerate) : e.up.start < e.up.finish :=
  State.sorted_lt h

theorem Segment.up_endpoint {e : Segment K} {p : Point K} : e.up.IsEndpoint p ↔ e.IsEndpoint p := by
  unfold Segment.up State.sorted Segment.IsEndpoint
  split_ifs
  · exact or_comm
  · rfl

/-- The edges of a contour from the lesser to the greater endpoint. -/
def Contour.ups (c : Contour K) : List (Segment K) := c.edgeList.map Segment.up

/-- The inclination respects the order of the vertices. -/
def Contour.Mono (ε : K) (c : Contour K) : Prop :=
  ∀ v ∈ c.vertices, ∀ w ∈ c.vertices, v < w → v.time ε < w.time ε

theorem mem_downward_ray {ε : K} {p q : Point K} :
    q ∈ ray p ⟨ε, -1⟩ ↔ q.time ε = p.time ε ∧ q.y ≤ p.y := by
  unfold ray Point.time
  constructor
  · rintro ⟨t, ht, rfl⟩
    exact ⟨by ring, by simp only; linarith⟩
  · rintro ⟨h1, h2⟩
    exact ⟨p.y - q.y, by linarith, Point.ext (by simp only; linarith) (by simp only; ring)⟩

theorem Contour.edge_vertices {c : Contour K} {e : Segment K} (he : e ∈ c.edgeList) :
    e.start ∈ c.vertices ∧ e.finish ∈ c.vertices := by
  obtain ⟨i, hi, rfl⟩ := List.mem_iff_getElem.mp he
  rw [edgeList_getElem]
  exact ⟨List.getElem_mem _, List.getElem_mem _⟩

theorem Segment.up_mem {e : Segment K} {p : Point K → Prop} (h1 : p e.start) (h2 : p e.finish) :
    p e.up.start ∧ p e.up.finish := by
  unfold Segment.up State.sorted
  split_ifs
  · exact ⟨h2, h1⟩
  · exact ⟨h1, h2⟩

theorem Contour.up_vertices {c : Contour K} {e : Segment K} (he : e ∈ c.edgeList) :
    e.up.start ∈ c.vertices ∧ e.up.finish ∈ c.vertices :=
  Segment.up_mem (p := (· ∈ c.vertices)) (edge_vertices he).1 (edge_vertices he).2

theorem Contour.Mono.times {ε : K} {c : Contour K} (h : c.Mono ε) {e : Segment K}
    (he : e ∈ c.edgeList) (hn : e.Nondegenerate) : e.up.start.time ε < e.up.finish.time ε :=
  h _ (up_vertices he).1 _ (up_vertices he).2 (up_lt hn)

/-- The interior of a contour is where the number of edges below is odd. -/
theorem mem_interior_iff_lowers {ε : K} {c : Contour K} (hm : c.Mono ε)
    (hn : ∀ e ∈ c.edgeList, e.Nondegenerate) {p : Point K} (hp : p ∉ c.pts)
    (hv : ∀ v ∈ c.vertices, v.time ε ≠ p.time ε) :
    (p ∈ c.interior ↔ Odd (lowers ε (p.time ε) p.y c.ups)) ∧
    (p ∈ c.exterior ↔ Even (lowers ε (p.time ε) p.y c.ups)) := by
  have hd : IsDirection (⟨ε, -1⟩ : Point K) := .inr (by simp)
  have ha : AvoidsVertices c p ⟨ε, -1⟩ := fun v h1 h2 => hv v h1 (mem_downward_ray.mp h2).1
  have hcount : edgesMeeting c (ray p ⟨ε, -1⟩) = lowers ε (p.time ε) p.y c.ups := by
    classical
    unfold edgesMeeting lowers Contour.ups
    rw [List.countP_map]
    refine List.countP_congr fun e he => ?_
    have ht := hm.times he (hn e he)
    have hpe : p ∉ e.up.pts := fun h => hp ⟨e, he, by rwa [Segment.pts_up] at h⟩
    simp only [Function.comp, decide_eq_true_eq]
    constructor
    · rintro ⟨q, hq, hr⟩
      rw [← Segment.pts_up, mem_pts_iff_height ht] at hq
      obtain ⟨k1, k2⟩ := mem_downward_ray.mp hr
      rw [k1] at hq
      refine ⟨⟨lt_of_le_of_ne hq.1 (hv _ (Contour.up_vertices he).1),
        lt_of_le_of_ne hq.2.1 (hv _ (Contour.up_vertices he).2).symm⟩, ?_⟩
      rw [← hq.2.2]
      refine lt_of_le_of_ne k2 fun h => hpe ?_
      rw [mem_pts_iff_height ht]
      exact ⟨hq.1, hq.2.1, h.symm.trans hq.2.2⟩
    · rintro ⟨⟨h1, h2⟩, h3⟩
      refine ⟨e.up.pointAt ε (p.time ε), ?_, mem_downward_ray.mpr ⟨pointAt_time .., h3.le⟩⟩
      rw [← Segment.pts_up]
      exact pointAt_mem ht h1.le h2.le
  obtain ⟨-, hr⟩ := Props.C10_point_in_region reference.context_exact p c
  have h1 := hr _ hd ha hp
  rw [hcount] at h1
  rw [← h1.1, ← h1.2, Props.C10_point_in_region_unique reference.context_exact,
    Props.C10_point_in_region_unique reference.context_exact]
  exact ⟨Iff.rfl, Iff.rfl⟩

theorem Contour.cover {c : Contour K} {p : Point K} (hp : p ∉ c.pts) : p ∈ c.interior ∨ p ∈ c.exterior := by
  cases h : planar.pointInRegion p c (reference.context : Context K) with
  | boundary => exact absurd ((Props.C10_point_in_region reference.context_exact p c).1.mp h) hp
  | interior => exact .inl ((Props.C10_point_in_region_unique reference.context_exact ..).mp h)
  | exterior => exact .inr ((Props.C10_point_in_region_unique reference.context_exact ..).mp h)

theorem Contour.not_both {c : Contour K} {p : Point K} (hi : p ∈ c.interior) : p ∉ c.exterior := by
  intro he
  have h1 := (Props.C10_point_in_region_unique reference.context_exact p c .interior).mpr hi
  have h2 := (Props.C10_point_in_region_unique reference.context_exact p c .exterior).mpr he
  rw [h1] at h2
  cases h2

theorem Contour.interior_iff_of_avoids {c : Contour K} {p q : Point K}
    (h : ∀ z ∈ (⟨p, q⟩ : Segment K).pts, z ∉ c.pts) : p ∈ c.interior ↔ q ∈ c.interior := by
  have := locatePoint_eq_of_disjoint reference.context_exact c (Set.disjoint_left.mpr fun z => h z)
  have key : ∀ x, x ∈ c.interior ↔ region.locatePoint c x (reference.context : Context K) = .interior :=
    fun x => (Props.C10_point_in_region_unique reference.context_exact x c .interior).symm
  rw [key, key, this]

/-! ### along an edge -/

theorem Segment.keep_order {ε : K} {u v : Segment K} {a b : K} (hab : a ≤ b)
    (h : ∀ t, a ≤ t → t ≤ b → u.height ε t ≠ v.height ε t) :
    u.height ε a < v.height ε a ↔ u.height ε b < v.height ε b := by
  rcases hab.eq_or_lt with rfl | hlt
  · rfl
  constructor
  · intro h1
    by_contra hn
    obtain ⟨t, k1, k2, k3⟩ := height_meet hlt h1 (not_lt.mp hn)
    exact h t k1.le k2 k3
  · intro h1
    by_contra hn
    have h2 := lt_of_le_of_ne (not_lt.mp hn) (h a le_rfl hab).symm
    obtain ⟨t, k1, k2, k3⟩ := height_meet hlt h2 h1.le
    exact h t k1.le k2 k3.symm

theorem exists_common_gap {ε : K} (v : Segment K) {t₁ t₂ : K} (l : List (Segment K))
    (h : ∀ u ∈ l, ∀ t, t₁ ≤ t → t ≤ t₂ → u.start.time ε ≤ t → t ≤ u.finish.time ε →
      v.height ε t ≠ u.height ε t) :
    ∃ δ, 0 < δ ∧ ∀ u ∈ l, ∀ t, t₁ ≤ t → t ≤ t₂ → u.start.time ε ≤ t → t ≤ u.finish.time ε →
      δ < |v.height ε t - u.height ε t| := by
  induction l with
  | nil => exact ⟨1, one_pos, by simp⟩
  | cons u l ih =>
    obtain ⟨δ, h1, h2⟩ := ih fun w hw => h w (List.mem_cons_of_mem _ hw)
    obtain ⟨δ', h1', h2'⟩ := height_gap (ε := ε) (u := v) (v := u)
      (a := max t₁ (u.start.time ε)) (b := min t₂ (u.finish.time ε))
      fun t k1 k2 => h u (List.mem_cons_self ..) t ((le_max_left _ _).trans k1)
        (k2.trans (min_le_left _ _)) ((le_max_right _ _).trans k1) (k2.trans (min_le_right _ _))
    refine ⟨min δ δ', lt_min h1 h1', fun w hw t k1 k2 k3 k4 => ?_⟩
    rcases List.mem_cons.mp hw with rfl | hw
    · exact (min_le_right _ _).trans_lt (h2' t (max_le k1 k3) (le_min k2 k4))
    · exact (min_le_left _ _).trans_lt (h2 w hw t k1 k2 k3 k4)

/-- The rest of the edges of a contour. -/
theorem exists_perm_one {α : Type} {l : List α} {i : Nat} {e : α} (h : l[i]? = some e) :
    ∃ o : List α, l.Perm (e :: o) ∧ ∀ k ∈ o, ∃ m, m ≠ i ∧ l[m]? = some k := by
  obtain ⟨hi, rfl⟩ := List.getElem?_eq_some_iff.mp h
  exact ⟨l.eraseIdx i, (List.getElem_cons_eraseIdx_perm hi).symm,
    fun k hk => List.mem_eraseIdx_iff_getElem?.mp hk⟩

theorem exists_perm_two {α : Type} {l : List α} {i j : Nat} {e f : α} (h : l[i]? = some e)
    (h' : l[j]? = some f) (hij : i ≠ j) :
    ∃ o : List α, l.Perm (e :: f :: o) ∧ ∀ k ∈ o, ∃ m, m ≠ i ∧ m ≠ j ∧ l[m]? = some k := by
  obtain ⟨hi, rfl⟩ := List.getElem?_eq_some_iff.mp h
  have hj : (l.eraseIdx i)[if j < i then j else j - 1]? = some f := by
    rw [List.getElem?_eraseIdx]
    split_ifs <;> first | exact h' | omega | (convert h' using 2; omega)
  obtain ⟨o, h1, h2⟩ := exists_perm_one hj
  refine ⟨o, (List.getElem_cons_eraseIdx_perm hi).symm.trans (h1.cons _), fun k hk => ?_⟩
  obtain ⟨m, hm, hk⟩ := h2 k hk
  rw [List.getElem?_eraseIdx] at hk
  split_ifs at hk hm with h1 h2
  · exact ⟨m, by omega, hm, hk⟩
  · exact ⟨m, by omega, by omega, hk⟩
  · exact ⟨m + 1, by omega, by omega, hk⟩
  · exact ⟨m + 1, by omega, by omega, hk⟩

/-- The parity of the number of edges below an edge does not change along the edge. -/
theorem lowers_steady {ε : K} {c : Contour K} (hs : c.Simple) (hm : c.Mono ε) {i : Nat}
    {e : Segment K} (he : c.edgeList[i]? = some e) {t₁ t₂ : K} (hlt : t₁ < t₂)
    (l₁ : e.up.start.time ε < t₁) (l₂ : t₂ < e.up.finish.time ε)
    (g₁ : ∀ v ∈ c.vertices, v.time ε ≠ t₁) (g₂ : ∀ v ∈ c.vertices, v.time ε ≠ t₂) :
    Odd (lowers ε t₁ (e.up.height ε t₁) c.ups) ↔ Odd (lowers ε t₂ (e.up.height ε t₂) c.ups) := by
  have hn : ∀ e ∈ c.edgeList, e.Nondegenerate := fun e he => hs.nondegenerate he
  have hte : e.up.start.time ε < e.up.finish.time ε := l₁.trans (hlt.trans l₂)
  obtain ⟨o, hperm, ho⟩ := exists_perm_one he
  have hmem : e ∈ c.edgeList := List.mem_of_getElem? he
  have hom : ∀ k ∈ o, k ∈ c.edgeList := fun k hk => hperm.mem_iff.mpr (List.mem_cons_of_mem _ hk)
  obtain ⟨δ, hδ, hgap⟩ := exists_common_gap (ε := ε) e.up (t₁ := t₁) (t₂ := t₂) (o.map Segment.up) (by
    intro u hu t k1 k2 k3 k4 heq
    obtain ⟨k, hk, rfl⟩ := List.mem_map.mp hu
    obtain ⟨m, hmi, hmk⟩ := ho k hk
    have htk := hm.times (hom k hk) (hn k (hom k hk))
    have p1 := pointAt_mem hte (l₁.le.trans k1) (k2.trans l₂.le)
    have p2 : e.up.pointAt ε t ∈ k.up.pts := by
      rw [mem_pts_iff_height htk, pointAt_time]
      exact ⟨k3, k4, heq⟩
    rw [Segment.pts_up] at p1 p2
    have := (hs.meet_getElem he hmk hmi.symm p1 p2).1
    rcases Segment.up_endpoint.mpr this with h | h
    · have := pointAt_time (ε := ε) e.up t
      rw [h] at this
      exact absurd (l₁.trans_le k1) this.not_lt
    · have := pointAt_time (ε := ε) e.up t
      rw [h] at this
      exact absurd (k2.trans_lt l₂) this.not_gt)
  obtain ⟨q1, q2⟩ := shifted_times (ε := ε) e.up (-δ) t₁ t₂
  have away : ∀ z ∈ (e.up.shifted ε (-δ) t₁ t₂).pts, z ∉ c.pts := by
    rintro z hz ⟨k, hk, hzk⟩
    obtain ⟨k1, k2, k3⟩ := mem_shifted hlt hz
    rcases List.mem_cons.mp (hperm.mem_iff.mp hk) with rfl | hk'
    · rw [← Segment.pts_up, mem_pts_iff_height hte] at hzk
      rw [hzk.2.2] at k3
      linarith
    · have htk := hm.times hk (hn k hk)
      rw [← Segment.pts_up, mem_pts_iff_height htk] at hzk
      have := hgap _ (List.mem_map.mpr ⟨k, hk', rfl⟩) _ k1 k2 hzk.1 hzk.2.1
      rw [← hzk.2.2, k3] at this
      have e' : e.up.height ε (z.time ε) - (e.up.height ε (z.time ε) + -δ) = δ := by ring
      rw [e', abs_of_pos hδ] at this
      exact lt_irrefl _ this
  have low : ∀ t, t₁ ≤ t → t ≤ t₂ → lowers ε t (e.up.height ε t + -δ) c.ups
      = lowers ε t (e.up.height ε t) c.ups := by
    intro t k1 k2
    refine lowers_congr fun u hu => ?_
    obtain ⟨k, hk, rfl⟩ := List.mem_map.mp hu
    refine and_congr_right fun hl => ⟨fun h => by linarith, fun h => ?_⟩
    rcases List.mem_cons.mp (hperm.mem_iff.mp hk) with rfl | hk'
    · exact absurd h (lt_irrefl _)
    · have := hgap _ (List.mem_map.mpr ⟨k, hk', rfl⟩) t k1 k2 hl.1.le hl.2.le
      rw [abs_of_pos (by linarith)] at this
      linarith
  have a1 := mem_interior_iff_lowers hm hn (away _ (Segment.start_mem _)) (by rw [q1]; exact g₁)
  have a2 := mem_interior_iff_lowers hm hn (away _ (Segment.finish_mem _)) (by rw [q2]; exact g₂)
  have a3 := Contour.interior_iff_of_avoids (p := (e.up.shifted ε (-δ) t₁ t₂).start)
    (q := (e.up.shifted ε (-δ) t₁ t₂).finish) away
  rw [a1.1, a2.1, q1, q2] at a3
  rw [← low t₁ le_rfl hlt.le, ← low t₂ hlt.le le_rfl]
  exact a3

end Orient
