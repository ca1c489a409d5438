import Verif.Lemmas.Sweep.Lowers

/-! The interior of a simple contour lies to one side of all its edges. -/

set_option linter.unusedSectionVars false

namespace Orient

variable {K : Type} [Field K] [LinearOrder K] [IsStrictOrderedRing K]

open Segment

theorem exists_window (ε τ : K) (V : List (Point K)) : ∃ t₁ t₂ : K, t₁ < τ ∧ τ < t₂ ∧
    ∀ w ∈ V, t₁ ≤ w.time ε → w.time ε ≤ t₂ → w.time ε = τ := by
  induction V with
  | nil => exact ⟨τ - 1, τ + 1, by linarith, by linarith, by simp⟩
  | cons w V ih =>
    obtain ⟨t₁, t₂, h1, h2, h3⟩ := ih
    rcases lt_trichotomy (w.time ε) τ with h | h | h
    · obtain ⟨m, m1, m2⟩ := exists_between (max_lt h1 h)
      refine ⟨m, t₂, m2, h2, fun x hx k1 k2 => ?_⟩
      rcases List.mem_cons.mp hx with rfl | hx
      · exact absurd (lt_of_le_of_lt (le_max_right _ _) m1) (not_lt.mpr k1)
      · exact h3 x hx ((le_max_left _ _).trans (m1.le.trans k1)) k2
    · refine ⟨t₁, t₂, h1, h2, fun x hx k1 k2 => ?_⟩
      rcases List.mem_cons.mp hx with rfl | hx
      · exact h
      · exact h3 x hx k1 k2
    · obtain ⟨m, m1, m2⟩ := exists_between (lt_min h2 h)
      refine ⟨t₁, m, h1, m1, fun x hx k1 k2 => ?_⟩
      rcases List.mem_cons.mp hx with rfl | hx
      · exact absurd (lt_of_lt_of_le m2 (min_le_right _ _)) (not_lt.mpr k2)
      · exact h3 x hx k1 ((k2.trans m2.le).trans (min_le_left _ _))

theorem Contour.Mono.lt_iff {ε : K} {c : Contour K} (hm : c.Mono ε) {p q : Point K}
    (hp : p ∈ c.vertices) (hq : q ∈ c.vertices) : p.time ε < q.time ε ↔ p < q := by
  refine ⟨fun h => ?_, hm p hp q hq⟩
  rcases lt_trichotomy p q with e | e | e
  · exact e
  · rw [e] at h; exact absurd h (lt_irrefl _)
  · exact absurd (hm q hq p hp e) h.asymm

theorem Contour.Mono.inj {ε : K} {c : Contour K} (hm : c.Mono ε) {p q : Point K}
    (hp : p ∈ c.vertices) (hq : q ∈ c.vertices) (h : p.time ε = q.time ε) : p = q := by
  rcases lt_trichotomy p q with e | e | e
  · exact absurd h (hm p hp q hq e).ne
  · exact e
  · exact absurd h (hm q hq p hp e).ne'

/-- At the time the edge has the interior above it iff it goes upwards. -/
def Turned (ε : K) (c : Contour K) (e : Segment K) (t : K) : Prop :=
  e.start < e.finish ↔ Even (lowers ε t (e.up.height ε t) c.ups)

/-- The time is not the time of a vertex. -/
def Free (ε : K) (c : Contour K) (t : K) : Prop := ∀ v ∈ c.vertices, v.time ε ≠ t

theorem turned_steady {ε : K} {c : Contour K} (hs : c.Simple) (hm : c.Mono ε) {i : Nat}
    {e : Segment K} (he : c.edgeList[i]? = some e) {t₁ t₂ : K}
    (l₁ : e.up.Live ε t₁) (l₂ : e.up.Live ε t₂)
    (g₁ : Free ε c t₁) (g₂ : Free ε c t₂) :
    Turned ε c e t₁ ↔ Turned ε c e t₂ := by
  unfold Turned
  rw [← Nat.not_odd_iff_even, ← Nat.not_odd_iff_even]
  rcases lt_trichotomy t₁ t₂ with h | h | h
  · rw [lowers_steady hs hm he h l₁.1 l₂.2 g₁ g₂]
  · rw [h]
  · rw [lowers_steady hs hm he h l₂.1 l₁.2 g₂ g₁]

/-- What happens at the vertex `v` of the edges `e` and `f`. -/
structure Meeting (ε : K) (c : Contour K) (v : Point K) (e f : Segment K) (o : List (Segment K))
    (t₁ t₂ : K) : Prop where
  perm : c.edgeList.Perm (e :: f :: o)
  before : t₁ < v.time ε
  after : v.time ε < t₂
  only : ∀ w ∈ c.vertices, t₁ ≤ w.time ε → w.time ε ≤ t₂ → w = v
  off : ∀ k ∈ o, v ∉ k.pts
  meet : ∀ k ∈ o, ∀ p ∈ k.pts, (p ∈ e.pts → e.IsEndpoint p) ∧ (p ∈ f.pts → f.IsEndpoint p)
  pair : ∀ p ∈ e.pts, p ∈ f.pts → p = v

theorem exists_meeting {ε : K} {c : Contour K} (hs : c.Simple) (hm : c.Mono ε) {i j : Nat}
    (hn : c.Next i j) : ∃ a v b o t₁ t₂, c.edgeList[i]? = some ⟨a, v⟩ ∧ c.edgeList[j]? = some ⟨v, b⟩ ∧
      Meeting ε c v ⟨a, v⟩ ⟨v, b⟩ o t₁ t₂ := by
  have h3 := hs.three
  obtain ⟨a, v, b, he, hf⟩ := hn.edges (by omega)
  have hij : i ≠ j := by
    rcases hn with ⟨h, -⟩ | ⟨h, h'⟩ <;> omega
  have hav := hs.nondegenerate (List.mem_of_getElem? he)
  have hvb := hs.nondegenerate (List.mem_of_getElem? hf)
  obtain ⟨o, hperm, ho⟩ := exists_perm_two he hf hij
  obtain ⟨t₁, t₂, w1, w2, w3⟩ := exists_window ε (v.time ε) c.vertices
  have hv : v ∈ c.vertices := (Contour.edge_vertices (List.mem_of_getElem? he)).2
  refine ⟨a, v, b, o, t₁, t₂, he, hf, hperm, w1, w2, ?_, ?_, ?_, ?_⟩
  · exact fun w hw k1 k2 => hm.inj hw hv (w3 w hw k1 k2)
  · intro k hk hvk
    obtain ⟨m, m1, m2, hmk⟩ := ho k hk
    have e1 := hs.meet_getElem he hmk m1.symm (Segment.finish_mem _) hvk
    rcases hs.next_of_common he hmk m1.symm e1.1 e1.2 with ⟨h, -, -⟩ | ⟨-, -, h⟩
    · rcases hn with ⟨h1, h2⟩ | ⟨h1, h2⟩ <;> rcases h with ⟨h4, h5⟩ | ⟨h4, h5⟩ <;> omega
    · exact hav h.symm
  · intro k hk p hp
    obtain ⟨m, m1, m2, hmk⟩ := ho k hk
    exact ⟨fun h => (hs.meet_getElem he hmk m1.symm h hp).1,
      fun h => (hs.meet_getElem hf hmk m2.symm h hp).1⟩
  · intro p h1 h2
    have e1 := hs.meet_getElem he hf hij h1 h2
    rcases hs.next_of_common he hf hij e1.1 e1.2 with ⟨-, h, -⟩ | ⟨h, -⟩
    · exact h
    · rcases hn with ⟨h4, h5⟩ | ⟨h4, h5⟩ <;> rcases h with ⟨h6, h7⟩ | ⟨h6, h7⟩ <;> omega

theorem Meeting.swap {ε : K} {c : Contour K} {v : Point K} {e f : Segment K} {o : List (Segment K)}
    {t₁ t₂ : K} (M : Meeting ε c v e f o t₁ t₂) : Meeting ε c v f e o t₁ t₂ :=
  ⟨M.perm.trans (.swap ..), M.before, M.after, M.only, M.off,
    fun k hk p hp => ((M.meet k hk p hp).symm), fun p h1 h2 => M.pair p h2 h1⟩

section

variable {ε : K} {c : Contour K} (hs : c.Simple) (hm : c.Mono ε) {v : Point K} {e f : Segment K}
  {o : List (Segment K)} {t₁ t₂ : K} (M : Meeting ε c v e f o t₁ t₂)

include hs hm M

/-- The other edges are below an edge in the vicinity of its endpoint iff they are below the
endpoint. -/
theorem Meeting.others (hve : e.IsEndpoint v) {τ : K} (hτ : t₁ ≤ τ) (hτ' : τ ≤ t₂)
    (hl : e.up.Live ε τ) :
    lowers ε τ (e.up.height ε τ) (o.map Segment.up) = lowers ε (v.time ε) v.y (o.map Segment.up) := by
  have hmem : e ∈ c.edgeList := M.perm.mem_iff.mpr (by simp)
  have hte := hm.times hmem (hs.nondegenerate hmem)
  have hve' : v ∈ e.up.pts := by
    rw [Segment.pts_up]
    rcases hve with h | h
    · rw [h]; exact Segment.start_mem _
    · rw [h]; exact Segment.finish_mem _
  obtain ⟨v1, v2, v3⟩ := (mem_pts_iff_height hte v).mp hve'
  refine lowers_congr fun u hu => ?_
  obtain ⟨k, hk, rfl⟩ := List.mem_map.mp hu
  have hkm : k ∈ c.edgeList := M.perm.mem_iff.mpr (by simp [hk])
  have htk := hm.times hkm (hs.nondegenerate hkm)
  obtain ⟨k1, k2⟩ := Contour.up_vertices hkm
  have hvk : v ∉ k.up.pts := by rw [Segment.pts_up]; exact M.off k hk
  -- the endpoints of the other edge are not near
  have away : ∀ w, w ∈ c.vertices → w ∈ k.up.pts → w.time ε < t₁ ∨ t₂ < w.time ε := by
    intro w hw hwk
    by_contra hn
    push Not at hn
    exact hvk (M.only w hw hn.1 hn.2 ▸ hwk)
  have a1 := away _ k1 (Segment.start_mem _)
  have a2 := away _ k2 (Segment.finish_mem _)
  have b1 := M.before
  have b2 := M.after
  have live : k.up.Live ε τ ↔ k.up.Live ε (v.time ε) := by
    unfold Segment.Live
    constructor <;> rintro ⟨h1, h2⟩ <;> constructor <;> rcases a1 with a1 | a1 <;>
      rcases a2 with a2 | a2 <;> linarith
  rw [live]
  refine and_congr_right fun hlk => ?_
  rw [v3]
  have ne : ∀ t, t₁ ≤ t → t ≤ t₂ → e.up.start.time ε ≤ t → t ≤ e.up.finish.time ε →
      k.up.height ε t ≠ e.up.height ε t := by
    intro t q1 q2 q3 q4 heq
    have p1 := pointAt_mem hte q3 q4
    have p2 : e.up.pointAt ε t ∈ k.up.pts := by
      rw [mem_pts_iff_height htk, pointAt_time]
      refine ⟨?_, ?_, heq.symm⟩
      · rcases a1 with a1 | a1
        · exact a1.le.trans q1
        · exact absurd hlk.1 (by linarith)
      · rcases a2 with a2 | a2
        · exact absurd hlk.2 (by linarith)
        · exact q2.trans a2.le
    have h1 := (M.meet k hk _ (by rwa [Segment.pts_up] at p2)).1 (by rwa [Segment.pts_up] at p1)
    have h2 : e.up.pointAt ε t ∈ c.vertices := by
      rcases h1 with h | h
      · rw [h]; exact (Contour.edge_vertices hmem).1
      · rw [h]; exact (Contour.edge_vertices hmem).2
    have h3 := M.only _ h2 (by rw [pointAt_time]; exact q1) (by rw [pointAt_time]; exact q2)
    exact hvk (h3 ▸ p2)
  rcases le_total τ (v.time ε) with h | h
  · exact Segment.keep_order h fun t q1 q2 => ne t (hτ.trans q1) (q2.trans b2.le)
      (hl.1.le.trans q1) (q2.trans v2)
  · exact (Segment.keep_order h fun t q1 q2 => ne t (b1.le.trans q1) (q2.trans hτ')
      (v1.trans q1) (q2.trans hl.2.le)).symm

/-- The edge itself and the other edge at the vertex. -/
theorem Meeting.lowers_eq (hve : e.IsEndpoint v) {τ : K} (hτ : t₁ ≤ τ) (hτ' : τ ≤ t₂)
    (hl : e.up.Live ε τ) :
    lowers ε τ (e.up.height ε τ) c.ups = lowers ε (v.time ε) v.y (o.map Segment.up) +
      if f.up.Live ε τ ∧ f.up.height ε τ < e.up.height ε τ then 1 else 0 := by
  have hp : c.ups.Perm (e.up :: f.up :: o.map Segment.up) := M.perm.map _
  rw [lowers_perm hp, lowers_cons, lowers_cons, M.others hs hm hve hτ hτ' hl]
  simp

end

/-- Consecutive edges are turned to the same side. -/
theorem turned_next {ε : K} {c : Contour K} (hs : c.Simple) (hm : c.Mono ε) {a v b : Point K}
    {o : List (Segment K)} {t₁ t₂ : K} (M : Meeting ε c v ⟨a, v⟩ ⟨v, b⟩ o t₁ t₂) :
    ∃ τ τ', Free ε c τ ∧ Free ε c τ' ∧ (⟨a, v⟩ : Segment K).up.Live ε τ ∧
      (⟨v, b⟩ : Segment K).up.Live ε τ' ∧ (Turned ε c ⟨a, v⟩ τ ↔ Turned ε c ⟨v, b⟩ τ') := by
  have he : (⟨a, v⟩ : Segment K) ∈ c.edgeList := M.perm.mem_iff.mpr (by simp)
  have hf : (⟨v, b⟩ : Segment K) ∈ c.edgeList := M.perm.mem_iff.mpr (by simp)
  have hav : a ≠ v := hs.nondegenerate he
  have hvb : v ≠ b := hs.nondegenerate hf
  have av := (Contour.edge_vertices he).1
  have vv := (Contour.edge_vertices he).2
  have bv := (Contour.edge_vertices hf).2
  have b1 := M.before
  have b2 := M.after
  have far : ∀ w ∈ c.vertices, w ≠ v → w.time ε < t₁ ∨ t₂ < w.time ε := by
    intro w hw hne
    by_contra hn
    push Not at hn
    exact hne (M.only w hw hn.1 hn.2)
  have f1 : Free ε c t₁ := by
    intro w hw h
    have := M.only w hw h.ge (h.le.trans (b1.trans b2).le)
    rw [this] at h
    exact b1.ne h.symm
  have f2 : Free ε c t₂ := by
    intro w hw h
    have := M.only w hw ((b1.trans b2).le.trans h.ge) h.le
    rw [this] at h
    exact b2.ne h
  have half : ∀ w ∈ c.vertices, w ≠ v → (w < v → w.time ε < t₁) ∧ (v < w → t₂ < w.time ε) := by
    intro w hw hne
    constructor
    · intro h
      have := hm w hw v vv h
      rcases far w hw hne with h' | h'
      · exact h'
      · linarith
    · intro h
      have := hm v vv w hw h
      rcases far w hw hne with h' | h'
      · linarith
      · exact h'
  -- the edges at one side of the vertex
  have same : ∀ τ, t₁ ≤ τ → τ ≤ t₂ → τ ≠ v.time ε → (⟨a, v⟩ : Segment K).up.Live ε τ →
      (⟨v, b⟩ : Segment K).up.Live ε τ →
      (Even (lowers ε τ ((⟨a, v⟩ : Segment K).up.height ε τ) c.ups) ↔
        ¬ Even (lowers ε τ ((⟨v, b⟩ : Segment K).up.height ε τ) c.ups)) := by
    intro τ h1 h2 hne l1 l2
    rw [M.lowers_eq hs hm (.inr rfl) h1 h2 l1, M.swap.lowers_eq hs hm (.inl rfl) h1 h2 l2]
    have hne' : (⟨a, v⟩ : Segment K).up.height ε τ ≠ (⟨v, b⟩ : Segment K).up.height ε τ := by
      intro heq
      have p1 := pointAt_mem (hm.times he (hs.nondegenerate he)) l1.1.le l1.2.le
      have p2 : (⟨a, v⟩ : Segment K).up.pointAt ε τ ∈ (⟨v, b⟩ : Segment K).up.pts := by
        rw [mem_pts_iff_height (hm.times hf (hs.nondegenerate hf)), pointAt_time]
        exact ⟨l2.1.le, l2.2.le, heq⟩
      rw [Segment.pts_up] at p1 p2
      have := M.pair _ p1 p2
      have ht := pointAt_time (ε := ε) (⟨a, v⟩ : Segment K).up τ
      rw [this] at ht
      exact hne ht.symm
    rcases lt_or_gt_of_ne hne' with h | h
    · simp only [l1, l2, h, not_lt.mpr h.le, and_true, and_false, if_true, if_false, add_zero,
        true_and, Nat.even_add_one, not_not]
    · simp only [l1, l2, h, not_lt.mpr h.le, and_true, and_false, if_true, if_false, add_zero,
        true_and, Nat.even_add_one]
  have up1 : ∀ {p q : Point K}, p < q → (⟨p, q⟩ : Segment K).up = ⟨p, q⟩ := by
    intro p q h
    unfold Segment.up State.sorted
    simp [not_lt.mpr h.le]
  have up2 : ∀ {p q : Point K}, q < p → (⟨p, q⟩ : Segment K).up = ⟨q, p⟩ := by
    intro p q h
    unfold Segment.up State.sorted
    simp [h]
  -- the edge which is not at the side of the other one
  have alone : ∀ τ, t₁ ≤ τ → τ ≤ t₂ → ∀ {e f : Segment K}, Meeting ε c v e f o t₁ t₂ →
      e.IsEndpoint v → e.up.Live ε τ → ¬ f.up.Live ε τ →
      lowers ε τ (e.up.height ε τ) c.ups = lowers ε (v.time ε) v.y (o.map Segment.up) := by
    intro τ h1 h2 e f M' h3 h4 h5
    rw [M'.lowers_eq hs hm h3 h1 h2 h4]
    simp [h5]
  have ha := half a av hav
  have hb := half b bv hvb.symm
  have hle : t₁ ≤ t₂ := (b1.trans b2).le
  rcases lt_or_gt_of_ne hav with h | h <;> rcases lt_or_gt_of_ne hvb with h' | h'
  · have l1 : (⟨a, v⟩ : Segment K).up.Live ε t₁ := by rw [up1 h]; exact ⟨ha.1 h, b1⟩
    have l2 : (⟨v, b⟩ : Segment K).up.Live ε t₂ := by rw [up1 h']; exact ⟨b2, hb.2 h'⟩
    refine ⟨t₁, t₂, f1, f2, l1, l2, ?_⟩
    unfold Turned
    rw [alone t₁ le_rfl hle M (.inr rfl) l1 (by rw [up1 h']; exact fun h => absurd h.1 b1.asymm),
      alone t₂ hle le_rfl M.swap (.inl rfl) l2 (by rw [up1 h]; exact fun h => absurd h.2 b2.asymm)]
    simp [h, h']
  · have l1 : (⟨a, v⟩ : Segment K).up.Live ε t₁ := by rw [up1 h]; exact ⟨ha.1 h, b1⟩
    have l2 : (⟨v, b⟩ : Segment K).up.Live ε t₁ := by rw [up2 h']; exact ⟨hb.1 h', b1⟩
    refine ⟨t₁, t₁, f1, f1, l1, l2, ?_⟩
    unfold Turned
    rw [same t₁ le_rfl hle b1.ne l1 l2]
    simp [h, not_lt.mpr h'.le]
  · have l1 : (⟨a, v⟩ : Segment K).up.Live ε t₂ := by rw [up2 h]; exact ⟨b2, ha.2 h⟩
    have l2 : (⟨v, b⟩ : Segment K).up.Live ε t₂ := by rw [up1 h']; exact ⟨b2, hb.2 h'⟩
    refine ⟨t₂, t₂, f2, f2, l1, l2, ?_⟩
    unfold Turned
    rw [same t₂ hle le_rfl b2.ne' l1 l2]
    simp [h', not_lt.mpr h.le]
  · have l1 : (⟨a, v⟩ : Segment K).up.Live ε t₂ := by rw [up2 h]; exact ⟨b2, ha.2 h⟩
    have l2 : (⟨v, b⟩ : Segment K).up.Live ε t₁ := by rw [up2 h']; exact ⟨hb.1 h', b1⟩
    refine ⟨t₂, t₁, f2, f1, l1, l2, ?_⟩
    unfold Turned
    rw [alone t₂ hle le_rfl M (.inr rfl) l1 (by rw [up2 h']; exact fun h => absurd h.2 b2.asymm),
      alone t₁ le_rfl hle M.swap (.inl rfl) l2 (by rw [up2 h]; exact fun h => absurd h.1 b1.asymm)]
    simp [not_lt.mpr h.le, not_lt.mpr h'.le]

/-- Some time of the edge. -/
theorem exists_free_live {ε : K} {c : Contour K} (hs : c.Simple) (hm : c.Mono ε) {e : Segment K}
    (he : e ∈ c.edgeList) : ∃ t, e.up.Live ε t ∧ Free ε c t := by
  have ht := hm.times he (hs.nondegenerate he)
  obtain ⟨t₁, t₂, h1, h2, h3⟩ := exists_window ε (e.up.start.time ε) c.vertices
  obtain ⟨t, k1, k2⟩ := exists_between (lt_min h2 ht)
  refine ⟨t, ⟨k1, k2.trans_le (min_le_right _ _)⟩, fun w hw h => ?_⟩
  have := h3 w hw (by rw [h]; linarith) (by rw [h]; exact k2.le.trans (min_le_left _ _))
  rw [h] at this
  exact k1.ne this.symm

/-- The edges with the given index are turned. -/
def TurnedAt (ε : K) (c : Contour K) (i : Nat) : Prop :=
  ∀ e, c.edgeList[i]? = some e → ∀ t, e.up.Live ε t → Free ε c t → Turned ε c e t

theorem turnedAt_iff {ε : K} {c : Contour K} (hs : c.Simple) (hm : c.Mono ε) {i : Nat}
    {e : Segment K} (he : c.edgeList[i]? = some e) {t : K} (hl : e.up.Live ε t) (hf : Free ε c t) :
    TurnedAt ε c i ↔ Turned ε c e t := by
  refine ⟨fun h => h e he t hl hf, fun h e' he' t' hl' hf' => ?_⟩
  rw [he] at he'
  cases he'
  exact (turned_steady hs hm he hl hl' hf hf').mp h

theorem turnedAt_next {ε : K} {c : Contour K} (hs : c.Simple) (hm : c.Mono ε) {i j : Nat}
    (hn : c.Next i j) : TurnedAt ε c i ↔ TurnedAt ε c j := by
  obtain ⟨a, v, b, o, t₁, t₂, he, hf, M⟩ := exists_meeting hs hm hn
  obtain ⟨τ, τ', f1, f2, l1, l2, h⟩ := turned_next hs hm M
  rw [turnedAt_iff hs hm he l1 f1, turnedAt_iff hs hm hf l2 f2, h]

theorem turnedAt_all {ε : K} {c : Contour K} (hs : c.Simple) (hm : c.Mono ε) {i j : Nat}
    (hi : i < c.vertices.length) (hj : j < c.vertices.length) :
    TurnedAt ε c i ↔ TurnedAt ε c j := by
  have key : ∀ i, i < c.vertices.length → (TurnedAt ε c i ↔ TurnedAt ε c 0) := by
    intro i
    induction i with
    | zero => exact fun _ => Iff.rfl
    | succ i ih =>
      intro h
      rw [← ih (by omega)]
      exact (turnedAt_next hs hm (.inl ⟨rfl, h⟩)).symm
  rw [key i hi, key j hj]

theorem Contour.LeastCorner.edges {c : Contour K} {p v q : Point K} (h : c.LeastCorner p v q) :
    (⟨p, v⟩ : Segment K) ∈ c.edgeList ∧ (⟨v, q⟩ : Segment K) ∈ c.edgeList := by
  obtain ⟨k, rest, hk, -⟩ := h
  have h1 := Contour.edge_succ ⟨c.vertices.rotate k⟩ 0 (by simp only; rw [hk]; simp)
  have h2 := Contour.edge_succ ⟨c.vertices.rotate k⟩ 1 (by simp only; rw [hk]; simp)
  have e : (⟨c.vertices.rotate k⟩ : Contour K).edgeList = c.edgeList.rotate k := edgeList_rotate ..
  rw [e] at h1 h2
  have m1 := List.mem_rotate.mp (List.mem_of_getElem? h1)
  have m2 := List.mem_rotate.mp (List.mem_of_getElem? h2)
  simp only [hk] at m1 m2
  exact ⟨m1, m2⟩

/-- The interior of a simple contour is above its increasing edges and below its decreasing ones iff
the contour is traversed counterclockwise. -/
theorem turned_iff_cross {ε : K} {c : Contour K} (hs : c.Simple) (hm : c.Mono ε) {p v q : Point K}
    (hl : c.LeastCorner p v q) {e : Segment K} (he : e ∈ c.edgeList) {t : K} (ht : e.up.Live ε t)
    (hf : Free ε c t) : Turned ε c e t ↔ 0 < Orient.cross p v q := by
  obtain ⟨m1, m2⟩ := hl.edges
  obtain ⟨k, rest, hk, hmin⟩ := hl
  have hvp : p ≠ v := hs.nondegenerate m1
  have hvq : v ≠ q := hs.nondegenerate m2
  obtain ⟨i, hi⟩ := List.mem_iff_getElem?.mp m1
  obtain ⟨j, hj⟩ := List.mem_iff_getElem?.mp m2
  obtain ⟨n, hn⟩ := List.mem_iff_getElem?.mp he
  have hij : i ≠ j := by
    rintro rfl
    rw [hi] at hj
    cases hj
    exact hvp rfl
  have hnext : c.Next i j := by
    rcases hs.next_of_common hi hj hij (p := v) (.inr rfl) (.inl rfl) with ⟨h, -⟩ | ⟨-, h, -⟩
    · exact h
    · exact absurd h hvq
  have lt : ∀ {i : Nat} {e : Segment K}, c.edgeList[i]? = some e → i < c.vertices.length := by
    intro i e h
    rw [← Contour.length_edgeList]
    exact (List.getElem?_eq_some_iff.mp h).1
  rw [← turnedAt_iff hs hm hn ht hf, turnedAt_all hs hm (lt hn) (lt hj)]
  obtain ⟨a, v', b, o, t₁, t₂, he', hf', M⟩ := exists_meeting hs hm hnext
  rw [hi] at he'
  rw [hj] at hf'
  cases he'
  cases hf'
  have pv := (Contour.edge_vertices m1).1
  have vv := (Contour.edge_vertices m1).2
  have qv := (Contour.edge_vertices m2).2
  have hp : v < p := lt_of_le_of_ne (hmin p pv) hvp.symm
  have hq : v < q := lt_of_le_of_ne (hmin q qv) hvq
  have up1 : ∀ {p q : Point K}, p < q → (⟨p, q⟩ : Segment K).up = ⟨p, q⟩ := by
    intro p q h
    unfold Segment.up State.sorted
    simp [not_lt.mpr h.le]
  have up2 : ∀ {p q : Point K}, q < p → (⟨p, q⟩ : Segment K).up = ⟨q, p⟩ := by
    intro p q h
    unfold Segment.up State.sorted
    simp [h]
  have b1 := M.before
  have b2 := M.after
  have far : ∀ w ∈ c.vertices, v < w → t₂ < w.time ε := by
    intro w hw h
    have h' := hm v vv w hw h
    by_contra hn
    have := M.only w hw (b1.le.trans h'.le) (not_lt.mp hn)
    rw [this] at h
    exact lt_irrefl _ h
  have f2 : Free ε c t₂ := by
    intro w hw h
    have := M.only w hw ((b1.trans b2).le.trans h.ge) h.le
    rw [this] at h
    exact b2.ne h
  have l1 : (⟨p, v⟩ : Segment K).up.Live ε t₂ := by rw [up2 hp]; exact ⟨b2, far p pv hp⟩
  have l2 : (⟨v, q⟩ : Segment K).up.Live ε t₂ := by rw [up1 hq]; exact ⟨b2, far q qv hq⟩
  rw [turnedAt_iff hs hm hj l2 f2]
  unfold Turned
  rw [M.swap.lowers_eq hs hm (.inl rfl) (b1.trans b2).le le_rfl l2]
  have zero : lowers ε (v.time ε) v.y (o.map Segment.up) = 0 := by
    unfold lowers
    rw [List.countP_eq_zero]
    intro u hu
    obtain ⟨k, hk, rfl⟩ := List.mem_map.mp hu
    have hkm : k ∈ c.edgeList := M.perm.mem_iff.mpr (by simp [hk])
    simp only [decide_eq_true_eq]
    rintro ⟨⟨h1, -⟩, -⟩
    rw [hm.lt_iff (Contour.up_vertices hkm).1 vv] at h1
    exact absurd (hmin _ (Contour.up_vertices hkm).1) (not_le.mpr h1)
  rw [zero, zero_add]
  have e1 : (⟨v, p⟩ : Segment K).start.time ε < (⟨v, p⟩ : Segment K).finish.time ε := hm v vv p pv hp
  have e2 : (⟨v, q⟩ : Segment K).start.time ε < (⟨v, q⟩ : Segment K).finish.time ε := hm v vv q qv hq
  have hc : Orient.cross p v q = Orient.cross v q p := by simp only [Orient.cross]; ring
  have hcr := cross_eq_height e2 p
  simp only at hcr
  rw [hc, hcr, mul_pos_iff_of_pos_left (sub_pos.mpr e2), sub_pos]
  have l1' := l1
  rw [up2 hp] at l1'
  rw [up2 hp, up1 hq]
  have h1 := height_finish e1
  have h2 := height_eq (ε := ε) (⟨v, p⟩ : Segment K) t₂ (v.time ε)
  have h3 := height_eq (ε := ε) (⟨v, q⟩ : Segment K) t₂ (v.time ε)
  have h4 := height_eq (ε := ε) (⟨v, p⟩ : Segment K) (p.time ε) (v.time ε)
  have h5 := height_eq (ε := ε) (⟨v, q⟩ : Segment K) (p.time ε) (v.time ε)
  have h6 := height_start (ε := ε) (⟨v, p⟩ : Segment K)
  have h7 := height_start (ε := ε) (⟨v, q⟩ : Segment K)
  simp only at h1 h2 h3 h4 h5 h6 h7
  rw [h6] at h2 h4
  rw [h7] at h3 h5
  have d1 : 0 < t₂ - v.time ε := by linarith
  have d2 : 0 < p.time ε - v.time ε := sub_pos.mpr e1
  rw [h5, ← h1, h4]
  simp only [hq, true_iff, l1', true_and]
  rw [h2, h3]
  simp only [add_lt_add_iff_left, mul_lt_mul_iff_left₀ d1, mul_lt_mul_iff_left₀ d2]
  -- the slopes differ
  have hne : (⟨v, p⟩ : Segment K).slope ε ≠ (⟨v, q⟩ : Segment K).slope ε := by
    intro hsl
    have p1 := pointAt_mem (ε := ε) e1 (t := t₂) b2.le (far p pv hp).le
    have p2 : (⟨v, p⟩ : Segment K).pointAt ε t₂ ∈ (⟨v, q⟩ : Segment K).pts := by
      rw [mem_pts_iff_height e2, pointAt_time]
      refine ⟨b2.le, (far q qv hq).le, ?_⟩
      change (⟨v, p⟩ : Segment K).height ε t₂ = _
      rw [h2, h3, hsl]
    have p1' : (⟨v, p⟩ : Segment K).pointAt ε t₂ ∈ (⟨p, v⟩ : Segment K).pts := by
      rw [← Segment.pts_up, up2 hp]; exact p1
    have := M.pair _ p1' p2
    have ht := pointAt_time (ε := ε) (⟨v, p⟩ : Segment K) t₂
    rw [this] at ht
    exact b2.ne ht
  split_ifs with h
  · simp [not_lt.mpr h.le]
  · simpa using lt_of_le_of_ne (not_lt.mp h) hne.symm

end Orient
