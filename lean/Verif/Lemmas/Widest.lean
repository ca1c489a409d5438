import Verif.Lemmas.Sweep.Turns
import Verif.Spec.Widest

/-! What `detect_crossing_angles` finds. -/

set_option linter.unusedSectionVars false

namespace Orient

variable {K : Type} [Field K] [LinearOrder K] [IsStrictOrderedRing K]

namespace eventsQueue

open Segment State

/-- The first of the least elements. -/
theorem minBy_first {R : Ev → Ev → Prop} (key : Ev → K) (e : Ev) (l : List Ev)
    (h : (e :: l).Pairwise R) (hR : ∀ a b, R a b → ¬ R b a) : ∀ x ∈ e :: l, key (minBy key e l) < key x ∨
      (key (minBy key e l) = key x ∧ (x = minBy key e l ∨ R (minBy key e l) x)) := by
  induction l generalizing e with
  | nil => simp [minBy]
  | cons y l ih =>
    simp only [minBy]
    rw [List.pairwise_cons] at h
    obtain ⟨h1, h2⟩ := h
    split_ifs with hk
    · intro x hx
      rcases List.mem_cons.mp hx with rfl | hx
      · exact .inl ((minBy_le key y l y (List.mem_cons_self ..)).trans_lt hk)
      · exact ih y h2 x hx
    · rw [List.pairwise_cons] at h2
      have h3 : (e :: l).Pairwise R := List.pairwise_cons.mpr
        ⟨fun z hz => h1 z (List.mem_cons_of_mem _ hz), h2.2⟩
      intro x hx
      rcases List.mem_cons.mp hx with rfl | hx
      · exact ih x h3 x (List.mem_cons_self ..)
      rcases List.mem_cons.mp hx with rfl | hx
      · rcases ih e h3 e (List.mem_cons_self ..) with h4 | ⟨h4, h5⟩
        · exact .inl (h4.trans_le (not_lt.mp hk))
        · rcases (not_lt.mp hk).lt_or_eq with h6 | h6
          · exact .inl (h4 ▸ h6)
          · refine .inr ⟨h4.trans h6, ?_⟩
            rcases h5 with h5 | h5
            · rw [← h5]; exact .inr (h1 x (List.mem_cons_self ..))
            · have := minBy_mem key e l
              rcases List.mem_cons.mp this with h7 | h7
              · rw [h7]; exact .inr (h1 x (List.mem_cons_self ..))
              · exact absurd h5 (hR _ _ (h1 _ (List.mem_cons_of_mem _ h7)))
      · exact ih e h3 x (List.mem_cons_of_mem _ hx)

theorem signedSquaredCosine_eq {context : Context K} (hc : context.Exact) {s : State K} {p g : Point K}
    {e : Ev} (he : s.evStart e = p) :
    signedSquaredCosine context s g e = signedCosine p g (s.evEnd e) := by
  unfold signedSquaredCosine signedCosine
  simp only [hc.dotProduct, hc.pointsSquaredDistance, he]
  split_ifs <;> ring

/-- The directions which `detect_crossing_angles` compares, in terms of events met in the order `H`. -/
def Wide (H : Point K → Point K → Prop) (s : State K) (p : Point K) (group : List Ev) : Prop :=
  ∃ d ∈ group, ∃ g ∈ group, ∃ h ∈ group, ∃ e ∈ group, ∃ e' ∈ group, s.evFromTest d = false ∧
    s.evFromTest g = false ∧ s.evFromTest h = false ∧ s.evFromTest e = true ∧ s.evFromTest e' = true ∧
    (∀ z ∈ group, s.evFromTest z = false → z = d ∨ H (s.evEnd d) (s.evEnd z)) ∧
    (∀ z ∈ group, s.evFromTest z = false →
      signedCosine p (s.evEnd d) (s.evEnd g) < signedCosine p (s.evEnd d) (s.evEnd z) ∨
      (signedCosine p (s.evEnd d) (s.evEnd g) = signedCosine p (s.evEnd d) (s.evEnd z) ∧
        (z = g ∨ H (s.evEnd g) (s.evEnd z)))) ∧
    (∀ z ∈ group, s.evFromTest z = false →
      signedCosine p (s.evEnd g) (s.evEnd h) < signedCosine p (s.evEnd g) (s.evEnd z) ∨
      (signedCosine p (s.evEnd g) (s.evEnd h) = signedCosine p (s.evEnd g) (s.evEnd z) ∧
        (z = h ∨ H (s.evEnd h) (s.evEnd z)))) ∧
    InAngle p (s.evEnd g) (s.evEnd h) (s.evEnd e) ∧
    InAngle p (s.evEnd h) (s.evEnd g) (s.evEnd e')

theorem Wide.turned {H : Point K → Point K → Prop} {s : State K} {p : Point K} {group : List Ev}
    (h : Wide H s p group) : Turned s p group := by
  obtain ⟨-, -, g, hg, k, hk, e, he, e', he', -, f1, f2, f3, f4, -, -, -, i1, i2⟩ := h
  exact ⟨g, hg, k, hk, e, he, e', he', f1, f2, f3, f4, i1, i2⟩

theorem one_lt_count {l : List Ev} {f : Ev → Bool} {x y : Ev} (hx : x ∈ l) (hy : y ∈ l)
    (fx : f x = true) (fy : f y = true) (hne : x ≠ y) : 1 < (l.filter f).length := by
  have h1 : x ∈ l.filter f := List.mem_filter.mpr ⟨hx, fx⟩
  have h2 : y ∈ l.filter f := List.mem_filter.mpr ⟨hy, fy⟩
  by_contra hn
  push Not at hn
  match hl : l.filter f with
  | [] => rw [hl] at h1; cases h1
  | [a] =>
    rw [hl, List.mem_singleton] at h1 h2
    exact hne (h1.trans h2.symm)
  | a :: b :: l' => rw [hl] at hn; simp at hn

/-- What `detect_crossing_angles` does. -/
theorem detectCrossingAngles_wide {context : Context K} (hc : context.Exact) {s : State K}
    {p : Point K} {group : List Ev} (st : Star s p group) {H : Point K → Point K → Prop}
    (hH : ∀ a b, H a b → ¬ H b a)
    (hp : group.Pairwise fun e e' => H (s.evEnd e) (s.evEnd e')) :
    (¬ Wide H s p group ∧ detectCrossingAngles context s group = s) ∨
    (Wide H s p group ∧ detectCrossingAngles context s group =
      group.foldl (fun s event => s.raiseRelation (s.leftOf event) .cross) s) := by
  have counts : Wide H s p group → 1 < (group.filter fun event => s.evFromTest event).length ∧
      1 < (group.filter fun event => !s.evFromTest event).length := by
    intro h
    obtain ⟨g, hg, k, hk, e, he, e', he', f1, f2, f3, f4, i1, i2⟩ := h.turned
    refine ⟨one_lt_count he he' f3 f4 ?_, one_lt_count hg hk (by simp [f1]) (by simp [f2]) ?_⟩
    · rintro rfl; exact i1.not_swap i2
    · rintro rfl; exact i1.not_swap i1
  have c3 := count_split group (fun event => s.evFromTest event)
  unfold detectCrossingAngles
  simp only
  split_ifs with h0
  · refine .inl ⟨fun hw => ?_, rfl⟩
    have := counts hw
    omega
  · push Not at h0
    obtain ⟨h1, h2, h3⟩ := h0
    have hg : 1 < (group.filter fun event => !s.evFromTest event).length := by omega
    obtain ⟨x, hx, y, hy, fx, fy, hxy⟩ := two_of_count st.nodup hg
    simp only [Bool.not_eq_true'] at fx fy
    split
    swap
    · next h =>
      exfalso
      obtain ⟨a, l, hl⟩ := List.exists_cons_of_ne_nil (List.ne_nil_of_mem hx)
      obtain ⟨b, m, hm⟩ := List.exists_cons_of_ne_nil (List.ne_nil_of_length_pos (Nat.zero_lt_of_lt hg))
      exact h a l b m hl hm
    next first rest goal goals e1 =>
    have inGroup : ∀ z, z ∈ goal :: goals ↔ z ∈ first :: rest ∧ s.evFromTest z = false := by
      intro z
      rw [← e1, List.mem_filter]
      simp
    have hst : ∀ z ∈ goal :: goals, s.evStart z = p := fun z hz => st.start z ((inGroup z).mp hz).1
    have hen : ∀ z ∈ goal :: goals, s.evEnd z ≠ p := fun z hz => st.ends z ((inGroup z).mp hz).1
    have hgoal : goal ∈ goal :: goals := List.mem_cons_self ..
    have hpair : (goal :: goals).Pairwise fun e e' => H (s.evEnd e) (s.evEnd e') := by
      rw [← e1]; exact hp.filter _
    have hhead : ∀ z ∈ first :: rest, s.evFromTest z = false → z = goal ∨
        H (s.evEnd goal) (s.evEnd z) := by
      intro z hz fz
      rcases List.mem_cons.mp ((inGroup z).mpr ⟨hz, fz⟩) with h | h
      · exact .inl h
      · exact .inr ((List.pairwise_cons.mp hpair).1 z h)
    rw [st.start first (List.mem_cons_self ..)]
    set base := minBy (signedSquaredCosine context s (s.evEnd goal)) goal goals with hbase
    set largest := minBy (signedSquaredCosine context s (s.evEnd base)) goal goals with hlargest
    have mb : base ∈ goal :: goals := minBy_mem ..
    have ml : largest ∈ goal :: goals := minBy_mem ..
    obtain ⟨gb, fb⟩ := (inGroup _).mp mb
    obtain ⟨gl, fl⟩ := (inGroup _).mp ml
    obtain ⟨gg, fg⟩ := (inGroup _).mp hgoal
    have first1 : ∀ z ∈ first :: rest, s.evFromTest z = false →
        signedCosine p (s.evEnd goal) (s.evEnd base) < signedCosine p (s.evEnd goal) (s.evEnd z) ∨
        (signedCosine p (s.evEnd goal) (s.evEnd base) = signedCosine p (s.evEnd goal) (s.evEnd z) ∧
          (z = base ∨ H (s.evEnd base) (s.evEnd z))) := by
      intro z hz fz
      have mz := (inGroup z).mpr ⟨hz, fz⟩
      have := minBy_first (signedSquaredCosine context s (s.evEnd goal)) goal goals hpair
        (fun a b h => hH _ _ h) z mz
      rwa [← hbase, signedSquaredCosine_eq hc (hst _ mb), signedSquaredCosine_eq hc (hst _ mz)] at this
    have first2 : ∀ z ∈ first :: rest, s.evFromTest z = false →
        signedCosine p (s.evEnd base) (s.evEnd largest) < signedCosine p (s.evEnd base) (s.evEnd z) ∨
        (signedCosine p (s.evEnd base) (s.evEnd largest) = signedCosine p (s.evEnd base) (s.evEnd z) ∧
          (z = largest ∨ H (s.evEnd largest) (s.evEnd z))) := by
      intro z hz fz
      have mz := (inGroup z).mpr ⟨hz, fz⟩
      have := minBy_first (signedSquaredCosine context s (s.evEnd base)) goal goals hpair
        (fun a b h => hH _ _ h) z mz
      rwa [← hlargest, signedSquaredCosine_eq hc (hst _ ml), signedSquaredCosine_eq hc (hst _ mz)] at this
    have n1 : ¬ SameRay p (s.evEnd goal) (s.evEnd base) := by
      refine minBy_not_same hc hst hen (hen _ hgoal) ?_
      by_cases e : goal = x
      · exact ⟨y, (inGroup y).mpr ⟨hy, fy⟩, st.rays _ gg y hy (fun e' => hxy (e.symm.trans e'))⟩
      · exact ⟨x, (inGroup x).mpr ⟨hx, fx⟩, st.rays _ gg x hx e⟩
    have n2 : ¬ SameRay p (s.evEnd base) (s.evEnd largest) :=
      minBy_not_same hc hst hen (hen _ mb) ⟨goal, hgoal, fun h => n1 h.symm⟩
    have key : ∀ t, t ∈ first :: rest → s.evFromTest t = true →
        (pointInAngle context (s.evEnd t) p (s.evEnd base) (s.evEnd largest)
          (context.angleOrientation p (s.evEnd base) (s.evEnd largest)) = true ↔
        if cross p (s.evEnd base) (s.evEnd largest) < 0
        then InAngle p (s.evEnd largest) (s.evEnd base) (s.evEnd t)
        else InAngle p (s.evEnd base) (s.evEnd largest) (s.evEnd t)) ∧
        (InAngle p (s.evEnd base) (s.evEnd largest) (s.evEnd t) ∨
          InAngle p (s.evEnd largest) (s.evEnd base) (s.evEnd t)) := by
      rintro t k1 k2
      have d1 : base ≠ t := by rintro e; rw [← e, fb] at k2; cases k2
      have d2 : largest ≠ t := by rintro e; rw [← e, fl] at k2; cases k2
      have r1 := st.rays _ gb t k1 d1
      have r2 := st.rays _ gl t k1 d2
      exact ⟨pointInAngle_iff hc (hen _ mb) (hen _ ml) (st.ends t k1) n2 r1 r2,
        inAngle_or (hen _ mb) (hen _ ml) (st.ends t k1) n2 r1 r2⟩
    split_ifs with h4
    · refine .inl ⟨?_, rfl⟩
      rintro ⟨d, hd, g, hg, h, hh, e, he, e', he', fd, fg', fh, fe, fe', a1, a2, a3, i1, i2⟩
      have ed : d = goal := by
        rcases hhead d hd fd with h | h
        · exact h
        · rcases a1 goal gg fg with h' | h'
          · exact h'.symm
          · exact absurd h' (hH _ _ h)
      subst ed
      have eg : g = base := by
        rcases first1 g hg fg' with h | ⟨h, h'⟩
        · rcases a2 base gb fb with k | ⟨k, -⟩
          · exact absurd h k.asymm
          · exact absurd h (by rw [k]; exact lt_irrefl _)
        · rcases h' with h' | h'
          · exact h'
          · rcases a2 base gb fb with k | ⟨-, k⟩
            · exact absurd k (by rw [h]; exact lt_irrefl _)
            · rcases k with k | k
              · exact k.symm
              · exact absurd k (hH _ _ h')
      subst eg
      have eh : h = largest := by
        rcases first2 h hh fh with k | ⟨k, k'⟩
        · rcases a3 largest gl fl with j | ⟨j, -⟩
          · exact absurd k j.asymm
          · exact absurd k (by rw [j]; exact lt_irrefl _)
        · rcases k' with k' | k'
          · exact k'
          · rcases a3 largest gl fl with j | ⟨-, j⟩
            · exact absurd j (by rw [k]; exact lt_irrefl _)
            · rcases j with j | j
              · exact j.symm
              · exact absurd j (hH _ _ k')
      rw [eh] at i1 i2
      rw [allEqual_map] at h4
      have eq := h4 e (List.mem_filter.mpr ⟨he, fe⟩) e' (List.mem_filter.mpr ⟨he', fe'⟩)
      rw [Bool.eq_iff_iff, (key e he fe).1, (key e' he' fe').1] at eq
      have s1 := i1.not_swap
      have s2 := i2.not_swap
      split_ifs at eq
      · exact s1 (eq.mpr i2)
      · exact s2 (eq.mp i1)
    · refine .inr ⟨?_, rfl⟩
      rw [allEqual_map] at h4
      push Not at h4
      obtain ⟨t, ht, t', ht', hne⟩ := h4
      rw [List.mem_filter] at ht ht'
      obtain ⟨a1, a2⟩ := key t ht.1 ht.2
      obtain ⟨b1, b2⟩ := key t' ht'.1 ht'.2
      have main : (InAngle p (s.evEnd base) (s.evEnd largest) (s.evEnd t) ∧
          InAngle p (s.evEnd largest) (s.evEnd base) (s.evEnd t')) ∨
          (InAngle p (s.evEnd base) (s.evEnd largest) (s.evEnd t') ∧
          InAngle p (s.evEnd largest) (s.evEnd base) (s.evEnd t)) := by
        by_contra hcon
        apply hne
        rw [Bool.eq_iff_iff, a1, b1]
        split_ifs <;> grind
      rcases main with ⟨m1, m2⟩ | ⟨m1, m2⟩
      · exact ⟨goal, gg, base, gb, largest, gl, t, ht.1, t', ht'.1, fg, fb, fl, ht.2, ht'.2, hhead,
          first1, first2, m1, m2⟩
      · exact ⟨goal, gg, base, gb, largest, gl, t', ht'.1, t, ht.1, fg, fb, fl, ht'.2, ht.2, hhead,
          first1, first2, m1, m2⟩

end eventsQueue

end Orient
