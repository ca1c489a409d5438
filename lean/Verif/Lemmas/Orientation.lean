import Verif.Model.Relate
import Verif.Spec.Context

/-! The orientation of a contour and the comparison of contours as cycles. -/

set_option linter.unusedSectionVars false
set_option linter.unusedSimpArgs false

namespace Orient

theorem pyGet_of_lt {α : Type} (l : List α) (i : Nat) (h : i < l.length) :
    pyGet l (i : Int) = .ok l[i] := by
  unfold pyGet
  have h0 : ¬ ((i : Int) < 0) := by omega
  simp [h0, h]

theorem pyGet_neg {α : Type} (l : List α) (i : Nat) (h : i < l.length) :
    pyGet l (-(i : Int) - 1) = .ok (l[l.length - 1 - i]'(by omega)) := by
  unfold pyGet
  have h0 : (-(i : Int) - 1 < 0) := by omega
  have h1 : (-(i : Int) - 1 + (l.length : Int)).toNat = l.length - 1 - i := by omega
  have h2 : ¬ (-(i : Int) - 1 + (l.length : Int) < 0) := by omega
  have h3 : l.length - 1 - i < l.length := by omega
  simp [h0, h1, h2, h3]

theorem mod_of_lt_add {a k n : Nat} (ha : a < n) (hk : k < n) :
    (a + k) % n = if a + k < n then a + k else a + k - n := by
  split
  · exact Nat.mod_eq_of_lt (by assumption)
  · rw [Nat.mod_eq_sub_mod (by omega), Nat.mod_eq_of_lt (by omega)]

namespace contour

variable {K : Type} [LinearOrder K]

theorem minIndex_spec (rest : List (Point K)) : ∀ (pre : List (Point K)) (best : Nat) (b : Point K),
    pre[best]? = some b → (∀ w ∈ pre, b ≤ w) →
    ∃ v, (pre ++ rest)[minIndex rest pre.length best b]? = some v ∧ ∀ w ∈ pre ++ rest, v ≤ w := by
  induction rest with
  | nil => intro pre best b h1 h2; simpa [minIndex] using ⟨b, h1, h2⟩
  | cons v rest ih =>
    intro pre best b h1 h2
    unfold minIndex
    have e : pre ++ v :: rest = (pre ++ [v]) ++ rest := by simp
    have el : pre.length + 1 = (pre ++ [v]).length := by simp
    rw [e, el]
    split
    · rename_i hv
      apply ih
      · simp
      · intro w hw
        rcases List.mem_append.mp hw with hw | hw
        · exact le_trans hv.le (h2 w hw)
        · simp only [List.mem_singleton] at hw; rw [hw]
    · rename_i hv
      apply ih
      · rw [List.getElem?_append_left (by rw [List.getElem?_eq_some_iff] at h1; exact h1.1)]
        exact h1
      · intro w hw
        rcases List.mem_append.mp hw with hw | hw
        · exact h2 w hw
        · simp only [List.mem_singleton] at hw; rw [hw]; exact not_lt.mp hv

theorem orientation_eq {c : Contour K} (context : Context K) (hn : c.vertices.Nodup)
    {p v q : Point K} (h : Orient.Contour.LeastCorner c p v q) :
    orientation c context = .ok (context.angleOrientation p v q) := by
  obtain ⟨k, rest, hk, hv⟩ := h
  wlog hkn : k < c.vertices.length generalizing k
  · have hpos : 0 < c.vertices.length := by
      rw [← List.length_rotate c.vertices k, hk]; simp
    exact this (k % c.vertices.length) (by rw [List.rotate_mod]; exact hk) (Nat.mod_lt _ hpos)
  obtain ⟨vs⟩ := c
  simp only at hn hk hv hkn
  have hlen : 3 ≤ vs.length := by rw [← List.length_rotate vs k, hk]; simp
  have hget : ∀ i (hi : i < vs.length), (vs.rotate k)[i]'(by simpa using hi)
      = vs[(i + k) % vs.length]'(Nat.mod_lt _ (by omega)) := by
    intro i hi; rw [List.getElem_rotate]
  have g0 := hget 0 (by omega)
  have g1 := hget 1 (by omega)
  have g2 := hget 2 (by omega)
  simp only [hk, List.getElem_cons_zero, List.getElem_cons_succ] at g0 g1 g2
  cases vs with
  | nil => simp at hlen
  | cons a tl =>
    obtain ⟨m, hm1, hm2⟩ := minIndex_spec tl [a] 0 a (by simp) (by simp)
    simp only [List.cons_append, List.nil_append, List.length_singleton] at hm1 hm2
    rw [List.getElem?_eq_some_iff] at hm1
    obtain ⟨hj, hm1⟩ := hm1
    have hmv : m = v := le_antisymm (hm2 v (by rw [g1]; exact List.getElem_mem _))
      (hv m (by rw [← hm1]; exact List.getElem_mem _))
    have hidx : minIndex tl 1 0 a = (1 + k) % (a :: tl).length := by
      refine (hn.getElem_inj_iff (hi := hj) (hj := Nat.mod_lt _ (by omega))).mp ?_
      rw [hm1, hmv, g1]
    unfold orientation
    simp only [hidx]
    have hmod1 := mod_of_lt_add (a := 1) (by omega : 1 < (a :: tl).length) hkn
    have hmod2 := mod_of_lt_add (a := 2) (by omega : 2 < (a :: tl).length) hkn
    have e1 : pyGet (a :: tl) (((1 + k) % (a :: tl).length : Nat) : Int) = .ok v := by
      rw [pyGet_of_lt _ _ (Nat.mod_lt _ (by omega)), ← g1]
    have e2 : pyGet (a :: tl) (((((1 + k) % (a :: tl).length : Nat) : Int) + 1)
        % ((a :: tl).length : Int)) = .ok q := by
      have : (((((1 + k) % (a :: tl).length : Nat) : Int) + 1) % ((a :: tl).length : Int))
          = (((2 + k) % (a :: tl).length : Nat) : Int) := by
        push_cast
        rw [Int.emod_add_emod]
        congr 1; omega
      rw [this, pyGet_of_lt _ _ (Nat.mod_lt _ (by omega)), ← g2]
    have e0 : pyGet (a :: tl) ((((1 + k) % (a :: tl).length : Nat) : Int) - 1) = .ok p := by
      have g0' : p = (a :: tl)[k]'hkn := by
        rw [g0]; congr 1; rw [Nat.zero_add, Nat.mod_eq_of_lt hkn]
      rw [hmod1]
      split
      · have : ((1 + k : Nat) : Int) - 1 = (k : Int) := by omega
        rw [this, pyGet_of_lt _ _ hkn, g0']
      · have hk' : k = (a :: tl).length - 1 := by omega
        have : ((1 + k - (a :: tl).length : Nat) : Int) - 1 = -((0 : Nat) : Int) - 1 := by
          have : 1 + k - (a :: tl).length = 0 := by omega
          rw [this]; simp
        rw [this, pyGet_neg _ _ (by omega), g0']
        congr 2
        omega
    rw [e0, e1, e2]
    rfl

theorem _root_.Orient.Contour.LeastCorner.rotate {c : Contour K} {p v q : Point K} (h : Orient.Contour.LeastCorner c p v q) (k : Nat) :
    Orient.Contour.LeastCorner ⟨c.vertices.rotate k⟩ p v q := by
  obtain ⟨j, rest, hj, hv⟩ := h
  have hpos : 0 < c.vertices.length := by
    rw [← List.length_rotate c.vertices j, hj]; simp
  refine ⟨(c.vertices.length - k % c.vertices.length) + j, rest, ?_, ?_⟩
  · simp only
    rw [← List.rotate_mod c.vertices k, List.rotate_rotate]
    have : k % c.vertices.length + (c.vertices.length - k % c.vertices.length + j)
        = c.vertices.length + j := by
      have := Nat.mod_lt k hpos
      omega
    rw [this, ← List.rotate_rotate, List.rotate_length, hj]
  · intro w hw
    exact hv w (by simpa using hw)

theorem _root_.Orient.Contour.LeastCorner.reverse {c : Contour K} {p v q : Point K} (h : Orient.Contour.LeastCorner c p v q) :
    Orient.Contour.LeastCorner ⟨c.vertices.reverse⟩ q v p := by
  obtain ⟨j, rest, hj, hv⟩ := h
  have e : (c.vertices.rotate j).reverse = rest.reverse ++ [q, v, p] := by rw [hj]; simp
  have hpos : 0 < c.vertices.length := by
    rw [← List.length_rotate c.vertices j, hj]; simp
  rw [List.reverse_rotate] at e
  have e2 : (c.vertices.reverse.rotate (c.vertices.length - j % c.vertices.length)).rotate
      rest.reverse.length = q :: v :: p :: rest.reverse := by
    rw [e, List.rotate_append_length_eq]; simp
  rw [List.rotate_rotate] at e2
  exact ⟨_, _, e2, fun w hw => hv w (by simpa using hw)⟩

/-! ### `equal` -/

theorem getElem_zip_range' {n i m j : Nat} : ∀ x ∈ List.zip (List.range' i n) (List.range' j m),
    ∃ t, t < n ∧ t < m ∧ x = (i + t, j + t) := by
  intro x hx
  rw [List.mem_iff_getElem] at hx
  obtain ⟨t, ht, rfl⟩ := hx
  simp only [List.length_zip, List.length_range', lt_min_iff] at ht
  exact ⟨t, ht.1, ht.2, by simp⟩

theorem mem_zip_range' {n i m j t : Nat} (h1 : t < n) (h2 : t < m) :
    (i + t, j + t) ∈ List.zip (List.range' i n) (List.range' j m) := by
  rw [List.mem_iff_getElem]
  exact ⟨t, by simp [h1, h2], by simp⟩

theorem getElem_zip_rev {n i m j : Nat} :
    ∀ x ∈ List.zip (List.range' i n) (List.range' j m).reverse,
    ∃ t, t < n ∧ t < m ∧ x = (i + t, j + (m - 1 - t)) := by
  intro x hx
  rw [List.mem_iff_getElem] at hx
  obtain ⟨t, ht, rfl⟩ := hx
  simp only [List.length_zip, List.length_range', List.length_reverse, lt_min_iff] at ht
  exact ⟨t, ht.1, ht.2, by simp⟩

theorem mem_zip_rev {n i m j t : Nat} (h1 : t < n) (h2 : t < m) :
    (i + t, j + (m - 1 - t)) ∈ List.zip (List.range' i n) (List.range' j m).reverse := by
  rw [List.mem_iff_getElem]
  exact ⟨t, by simp [h1, h2], by simp⟩

theorem mem_equalIndices_true {n index : Nat} (hi : index < n) (a b : Nat) :
    (a, b) ∈ equalIndices n index true ↔ a < n ∧ b < n ∧ (b = a + index ∨ b + n = a + index) := by
  unfold equalIndices
  simp only [if_true, List.mem_append, List.range_eq_range']
  constructor
  · rintro (h | h) <;> obtain ⟨t, h1, h2, h3⟩ := getElem_zip_range' _ h <;>
      simp only [Prod.mk.injEq] at h3 <;> omega
  · rintro ⟨ha, hb, h⟩
    rcases h with h | h
    · left
      have := mem_zip_range' (i := 0) (j := index) (n := n) (m := n - index) (t := a) ha (by omega)
      convert this using 2 <;> omega
    · right
      have := mem_zip_range' (i := n - index) (j := 0) (n := n - (n - index)) (m := index) (t := b)
        (by omega) (by omega)
      convert this using 2 <;> omega

theorem mem_equalIndices_false {n index : Nat} (hi : index < n) (a b : Nat) :
    (a, b) ∈ equalIndices n index false ↔
      a < n ∧ b < n ∧ (a + b = index ∨ a + b = index + n) := by
  unfold equalIndices
  simp only [Bool.false_eq_true, if_false, List.mem_append, List.range_eq_range']
  constructor
  · rintro (h | h) <;> obtain ⟨t, h1, h2, h3⟩ := getElem_zip_rev _ h <;>
      simp only [Prod.mk.injEq] at h3 <;> omega
  · rintro ⟨ha, hb, h⟩
    rcases h with h | h
    · left
      have := mem_zip_rev (i := 0) (j := 0) (n := n) (m := index + 1) (t := a) ha (by omega)
      convert this using 2 <;> omega
    · right
      have := mem_zip_rev (i := index + 1) (j := index) (n := n - (index + 1)) (m := n - index)
        (t := a - (index + 1)) (by omega) (by omega)
      convert this using 2 <;> omega

/-- The comparison of `equal` once the index and the orientations are known. -/
theorem all_equalIndices_true {l r : List (Point K)} (hl : l.length = r.length) {index : Nat}
    (hi : index < r.length) :
    ((equalIndices l.length index true).all fun indices =>
      decide (l[indices.1]? = r[indices.2]?)) = true ↔ r.rotate index = l := by
  rw [List.all_eq_true]
  constructor
  · intro h
    apply List.ext_getElem
    · rw [List.length_rotate, hl]
    · intro i h1 h2
      rw [List.getElem_rotate]
      have hlt : (i + index) % r.length < r.length := Nat.mod_lt _ (by omega)
      have := h (i, (i + index) % r.length) (by
        rw [mem_equalIndices_true (by omega)]
        refine ⟨h2, by omega, ?_⟩
        rw [mod_of_lt_add (by omega) hi]
        split <;> omega)
      simp only [decide_eq_true_eq, List.getElem?_eq_getElem h2, List.getElem?_eq_getElem hlt,
        Option.some.injEq] at this
      exact this.symm
  · rintro h ⟨a, b⟩ hab
    rw [mem_equalIndices_true (by omega)] at hab
    obtain ⟨ha, hb, hab⟩ := hab
    rw [hl] at hb hab
    simp only [decide_eq_true_eq, List.getElem?_eq_getElem ha, List.getElem?_eq_getElem hb,
      Option.some.injEq]
    have : l[a] = (r.rotate index)[a]'(by rw [List.length_rotate]; omega) := by
      congr 1; exact h.symm
    rw [this, List.getElem_rotate]
    congr 1
    rw [mod_of_lt_add (by omega) hi]
    split <;> omega

theorem all_equalIndices_false {l r : List (Point K)} (hl : l.length = r.length) {index : Nat}
    (hi : index < r.length) :
    ((equalIndices l.length index false).all fun indices =>
      decide (l[indices.1]? = r[indices.2]?)) = true ↔ (r.rotate (index + 1)).reverse = l := by
  rw [List.all_eq_true]
  have hget : ∀ i (h : i < r.length), (r.rotate (index + 1)).reverse[i]'(by simpa using h)
      = r[if i ≤ index then index - i else index + r.length - i]'(by split <;> omega) := by
    intro i h
    rw [List.getElem_reverse, List.getElem_rotate]
    congr 1
    rw [List.length_rotate]
    rcases Nat.lt_or_ge (index + 1) r.length with hlt | hge
    · rw [mod_of_lt_add (by omega) hlt]
      split <;> split <;> omega
    · have : index + 1 = r.length := by omega
      rw [this, Nat.add_mod_right, Nat.mod_eq_of_lt (by omega)]
      split <;> omega
  constructor
  · intro h
    apply List.ext_getElem
    · rw [List.length_reverse, List.length_rotate, hl]
    · intro i h1 h2
      rw [hget i (by omega)]
      have hlt : (if i ≤ index then index - i else index + r.length - i) < r.length := by
        split <;> omega
      have := h (i, if i ≤ index then index - i else index + r.length - i) (by
        rw [mem_equalIndices_false (by omega)]
        refine ⟨h2, by omega, ?_⟩
        split <;> omega)
      simp only [decide_eq_true_eq, List.getElem?_eq_getElem h2, List.getElem?_eq_getElem hlt,
        Option.some.injEq] at this
      exact this.symm
  · rintro h ⟨a, b⟩ hab
    rw [mem_equalIndices_false (by omega)] at hab
    obtain ⟨ha, hb, hab⟩ := hab
    rw [hl] at hb hab
    simp only [decide_eq_true_eq, List.getElem?_eq_getElem ha, List.getElem?_eq_getElem hb,
      Option.some.injEq]
    have : l[a] = (r.rotate (index + 1)).reverse[a]'(by simpa using (by omega : a < r.length)) := by
      congr 1; exact h.symm
    rw [this, hget a (by omega)]
    congr 1
    split <;> omega

theorem equal_sound {left right : Contour K} {context : Context K}
    (h : equal left right context = .ok true) :
    ∃ k, left.vertices = right.vertices.rotate k ∨
      left.vertices = (right.vertices.rotate k).reverse := by
  unfold equal at h
  split at h
  · cases h
  · rename_i hl
    have hl : left.vertices.length = right.vertices.length := not_not.mp hl
    simp only [pure_bind] at h
    cases hf : pyGet left.vertices 0 with
    | error e => rw [hf] at h; cases h
    | ok first =>
      rw [hf] at h
      simp only [bind, Except.bind] at h
      cases hi : right.vertices.findIdx? (fun v => decide (v = first)) with
      | none => rw [hi] at h; simp [pure, Except.pure] at h
      | some index =>
        rw [hi] at h
        have hlt : index < right.vertices.length :=
          (List.findIdx?_eq_some_iff_findIdx_eq.mp hi).1
        cases hlo : orientation left context with
        | error e => simp only [hlo] at h; cases h
        | ok lo =>
          cases hro : orientation right context with
          | error e => simp only [hlo, hro] at h; cases h
          | ok ro =>
            simp only [hlo, hro, pure, Except.pure, Except.ok.injEq] at h
            by_cases ho : lo = ro
            · simp only [ho, decide_true] at h
              rw [all_equalIndices_true hl hlt] at h
              exact ⟨index, .inl h.symm⟩
            · simp only [ho, decide_false] at h
              rw [all_equalIndices_false hl hlt] at h
              exact ⟨index + 1, .inr h.symm⟩

theorem rotate_of_head {l r : List (Point K)} (hr : r.Nodup) {k index : Nat} (hk : l = r.rotate k)
    {a : Point K} {tl : List (Point K)} (ha : l = a :: tl) (hi : r[index]? = some a) :
    r.rotate index = l := by
  have hpos : 0 < r.length := by rw [← List.length_rotate r k, ← hk, ha]; simp
  rw [List.getElem?_eq_some_iff] at hi
  obtain ⟨hlt, hi⟩ := hi
  have h0 : (r.rotate k)[0]'(by rw [List.length_rotate]; exact hpos) = a := by
    simp only [← hk, ha, List.getElem_cons_zero]
  rw [List.getElem_rotate] at h0
  have : (0 + k) % r.length = index :=
    (hr.getElem_inj_iff (hi := Nat.mod_lt _ hpos) (hj := hlt)).mp (h0.trans hi.symm)
  rw [hk, ← this, Nat.zero_add, List.rotate_mod]

theorem rotate_of_head_reverse {l r : List (Point K)} (hr : r.Nodup) {k index : Nat}
    (hk : l = (r.rotate k).reverse)
    {a : Point K} {tl : List (Point K)} (ha : l = a :: tl) (hi : r[index]? = some a) :
    (r.rotate (index + 1)).reverse = l := by
  have hpos : 0 < r.length := by
    rw [← List.length_rotate r k, ← List.length_reverse, ← hk, ha]; simp
  rw [List.getElem?_eq_some_iff] at hi
  obtain ⟨hlt, hi⟩ := hi
  have h0 : (r.rotate k).reverse[0]'(by simpa using hpos) = a := by
    simp only [← hk, ha, List.getElem_cons_zero]
  rw [List.getElem_reverse, List.getElem_rotate] at h0
  have : ((r.rotate k).length - 1 - 0 + k) % r.length = index :=
    (hr.getElem_inj_iff (hi := Nat.mod_lt _ hpos) (hj := hlt)).mp (h0.trans hi.symm)
  rw [hk]
  congr 1
  rw [← List.rotate_mod r (index + 1), ← List.rotate_mod r k, ← this, List.length_rotate]
  congr 1
  rw [Nat.mod_add_mod]
  have : r.length - 1 - 0 + k + 1 = k + r.length := by omega
  rw [this, Nat.add_mod_right]

theorem equal_complete {left right : Contour K} {context : Context K}
    (hn : right.vertices.Nodup) {p v q : Point K} (hc : Orient.Contour.LeastCorner right p v q)
    (ho : context.angleOrientation p v q ≠ context.angleOrientation q v p) {k : Nat}
    (h : left.vertices = right.vertices.rotate k ∨
      left.vertices = (right.vertices.rotate k).reverse) :
    equal left right context = .ok true := by
  have hlen : left.vertices.length = right.vertices.length := by
    rcases h with h | h <;> rw [h] <;> simp
  have hpos : 0 < right.vertices.length := by
    obtain ⟨j, rest, hj, -⟩ := hc
    rw [← List.length_rotate right.vertices j, hj]; simp
  have hro := orientation_eq context hn hc
  obtain ⟨a, tl, ha⟩ : ∃ a tl, left.vertices = a :: tl := by
    cases hv : left.vertices with
    | nil => rw [hv] at hlen; simp at hlen; omega
    | cons a tl => exact ⟨a, tl, rfl⟩
  have hmem : a ∈ right.vertices := by
    have : a ∈ left.vertices := by rw [ha]; simp
    rcases h with h | h <;> rw [h] at this <;> simpa using this
  have hg : pyGet left.vertices 0 = .ok a := by
    have := pyGet_of_lt left.vertices 0 (by omega)
    simp only [ha, List.getElem_cons_zero] at this
    rw [ha]; exact this
  obtain ⟨index, hi⟩ : ∃ i, right.vertices.findIdx? (fun v => decide (v = a)) = some i := by
    cases hf : right.vertices.findIdx? (fun v => decide (v = a)) with
    | none =>
      rw [List.findIdx?_eq_none_iff] at hf
      have := hf a hmem
      simp at this
    | some i => exact ⟨i, rfl⟩
  have hi' := List.findIdx?_eq_some_iff_getElem.mp hi
  obtain ⟨hlt, hia, -⟩ := hi'
  have hia : right.vertices[index]? = some a := by
    rw [List.getElem?_eq_getElem hlt]
    simpa using hia
  unfold equal
  rw [if_neg (not_not.mpr hlen)]
  simp only [hg, hi, hro, bind, Except.bind, pure, Except.pure]
  rcases h with h | h
  · have hlo : orientation left context = .ok (context.angleOrientation p v q) := by
      have hln : left.vertices.Nodup := by rw [h]; exact List.nodup_rotate.mpr hn
      apply orientation_eq context hln
      have := hc.rotate k
      rwa [← h] at this
    simp only [hlo, decide_true]
    congr 1
    rw [all_equalIndices_true hlen hlt]
    exact rotate_of_head hn h ha hia
  · have hlo : orientation left context = .ok (context.angleOrientation q v p) := by
      have hln : left.vertices.Nodup := by
        rw [h]; exact List.nodup_reverse.mpr (List.nodup_rotate.mpr hn)
      apply orientation_eq context hln
      have := (hc.rotate k).reverse
      simp only [← h] at this
      exact this
    simp only [hlo, Ne.symm ho, decide_false]
    congr 1
    rw [all_equalIndices_false hlen hlt]
    exact rotate_of_head_reverse hn h ha hia

end contour

end Orient
