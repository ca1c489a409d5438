import Verif.Lemmas.Composing
import Verif.Spec.Joins

/-! # Relations of unions -/

namespace Orient

variable {P : Type}

/-- The relation of a linear geometry which consists of pieces. -/
theorem linearLocations_union {ι : Type} {s : ι → Prop} {f : ι → P → Location} {l l' : P → Location}
    (h : ∀ p, l p = .boundary ↔ ∃ i, s i ∧ f i p = .boundary) (ne : ∀ i, s i → ∃ p, f i p = .boundary)
    (ht : ∀ i, s i → ∃ r, LinearLocations (f i) l' r) (ns : ∃ i, s i) (q : Relation) :
    LinearLocations l l' q ↔ JoinOf (fun r => ∃ i, s i ∧ LinearLocations (f i) l' r) q := by
  have hits : ∀ i, s i → ∀ r, LinearLocations (f i) l' r →
      ((∃ p, f i p = .boundary ∧ l' p = .interior) ↔ r = .within ∨ r = .enclosed ∨ r = .cross) ∧
      ((∃ p, f i p = .boundary ∧ l' p = .exterior) ↔ r = .disjoint ∨ r = .touch ∨ r = .cross) ∧
      (r ≠ .cross → ((∃ p, f i p = .boundary ∧ l' p = .boundary) ↔
        r = .component ∨ r = .touch ∨ r = .enclosed)) := by
    intro i hi r hr
    obtain ⟨p, hp⟩ := ne i hi
    cases r <;> simp only [LinearLocations] at hr <;> simp <;> grind
  have c : ∀ p, l' p = .interior ∨ l' p = .boundary ∨ l' p = .exterior := by intro p; cases l' p <;> simp
  have key : LinearLocations l l' q ↔ match q with
      | .disjoint => ¬ (∃ p, l p = .boundary ∧ l' p = .interior) ∧ ¬ ∃ p, l p = .boundary ∧ l' p = .boundary
      | .within => ¬ (∃ p, l p = .boundary ∧ l' p = .exterior) ∧ ¬ ∃ p, l p = .boundary ∧ l' p = .boundary
      | .component => ¬ (∃ p, l p = .boundary ∧ l' p = .interior) ∧ ¬ ∃ p, l p = .boundary ∧ l' p = .exterior
      | .enclosed => ¬ (∃ p, l p = .boundary ∧ l' p = .exterior) ∧ (∃ p, l p = .boundary ∧ l' p = .interior) ∧
        ∃ p, l p = .boundary ∧ l' p = .boundary
      | .touch => ¬ (∃ p, l p = .boundary ∧ l' p = .interior) ∧ (∃ p, l p = .boundary ∧ l' p = .exterior) ∧
        ∃ p, l p = .boundary ∧ l' p = .boundary
      | .cross => (∃ p, l p = .boundary ∧ l' p = .interior) ∧ ∃ p, l p = .boundary ∧ l' p = .exterior
      | _ => False := by
    clear h ne ht ns hits
    cases q <;> simp only [LinearLocations] <;> grind
  rw [key]
  clear key
  generalize hR : (fun r => ∃ i, s i ∧ LinearLocations (f i) l' r) = R
  have mk : ∀ {i r}, s i → LinearLocations (f i) l' r → R r := fun hi hr => by rw [← hR]; exact ⟨_, hi, hr⟩
  have get : ∀ {r}, R r → ∃ i, s i ∧ LinearLocations (f i) l' r := fun hr => by rw [← hR] at hr; exact hr
  have hI : (∃ p, l p = .boundary ∧ l' p = .interior) ↔ R .within ∨ R .enclosed ∨ R .cross := by
    constructor
    · rintro ⟨p, hp, hp'⟩
      obtain ⟨i, hi, hp⟩ := (h p).mp hp
      obtain ⟨r, hr⟩ := ht i hi
      rcases (hits i hi r hr).1.mp ⟨p, hp, hp'⟩ with rfl | rfl | rfl
      · exact .inl (mk hi hr)
      · exact .inr (.inl (mk hi hr))
      · exact .inr (.inr (mk hi hr))
    · intro k
      obtain ⟨r, hr, k⟩ : ∃ r : Relation, (r = .within ∨ r = .enclosed ∨ r = .cross) ∧ R r := by
        rcases k with k | k | k <;> exact ⟨_, by simp, k⟩
      obtain ⟨i, hi, k⟩ := get k
      obtain ⟨p, hp, hp'⟩ := (hits i hi r k).1.mpr hr
      exact ⟨p, (h p).mpr ⟨i, hi, hp⟩, hp'⟩
  have hE : (∃ p, l p = .boundary ∧ l' p = .exterior) ↔ R .disjoint ∨ R .touch ∨ R .cross := by
    constructor
    · rintro ⟨p, hp, hp'⟩
      obtain ⟨i, hi, hp⟩ := (h p).mp hp
      obtain ⟨r, hr⟩ := ht i hi
      rcases (hits i hi r hr).2.1.mp ⟨p, hp, hp'⟩ with rfl | rfl | rfl
      · exact .inl (mk hi hr)
      · exact .inr (.inl (mk hi hr))
      · exact .inr (.inr (mk hi hr))
    · intro k
      obtain ⟨r, hr, k⟩ : ∃ r : Relation, (r = .disjoint ∨ r = .touch ∨ r = .cross) ∧ R r := by
        rcases k with k | k | k <;> exact ⟨_, by simp, k⟩
      obtain ⟨i, hi, k⟩ := get k
      obtain ⟨p, hp, hp'⟩ := (hits i hi r k).2.1.mpr hr
      exact ⟨p, (h p).mpr ⟨i, hi, hp⟩, hp'⟩
  have hB : ¬ R .cross → ((∃ p, l p = .boundary ∧ l' p = .boundary) ↔ R .component ∨ R .touch ∨ R .enclosed) := by
    intro nc
    constructor
    · rintro ⟨p, hp, hp'⟩
      obtain ⟨i, hi, hp⟩ := (h p).mp hp
      obtain ⟨r, hr⟩ := ht i hi
      have n : r ≠ .cross := fun e => nc (by rw [e] at hr; exact mk hi hr)
      rcases ((hits i hi r hr).2.2 n).mp ⟨p, hp, hp'⟩ with rfl | rfl | rfl
      · exact .inl (mk hi hr)
      · exact .inr (.inl (mk hi hr))
      · exact .inr (.inr (mk hi hr))
    · intro k
      obtain ⟨r, hr, n, k⟩ : ∃ r : Relation, (r = .component ∨ r = .touch ∨ r = .enclosed) ∧ r ≠ .cross ∧ R r := by
        rcases k with k | k | k <;> exact ⟨_, by simp, by simp, k⟩
      obtain ⟨i, hi, k⟩ := get k
      obtain ⟨p, hp, hp'⟩ := ((hits i hi r k).2.2 n).mpr hr
      exact ⟨p, (h p).mpr ⟨i, hi, hp⟩, hp'⟩
  have kinds : ∀ r, R r → r = .disjoint ∨ r = .touch ∨ r = .cross ∨ r = .component ∨ r = .enclosed ∨
      r = .within := by
    intro r hr
    obtain ⟨i, -, hr⟩ := get hr
    clear get mk hI hE hB hits hR
    cases r <;> first | (simp; done) | exact hr.elim
  have some : ∃ r, R r := by
    obtain ⟨i, hi⟩ := ns
    obtain ⟨r, hr⟩ := ht i hi
    exact ⟨r, mk hi hr⟩
  generalize (∃ p, l p = .boundary ∧ l' p = .interior) = I at *
  generalize (∃ p, l p = .boundary ∧ l' p = .exterior) = E at *
  generalize (∃ p, l p = .boundary ∧ l' p = .boundary) = B at *
  clear mk get hits ht ne h hR c
  cases q <;> simp only [hI, hE, JoinOf] <;> grind

/-- The relation of a union, if the demands can be met together. -/
def consistentUnion (d e f : Demand) : Bool :=
  let T := allTriples.filter fun t =>
    (t.1 == .exterior || t.2.1 == .exterior || (t.1 == .boundary && t.2.1 == .boundary)) &&
      d.allows t.1 t.2.2 && e.allows t.2.1 t.2.2 &&
      f.allows (if t.1 == .exterior then t.2.1 else t.1) t.2.2
  (d.needs.all fun q => T.any fun t => t.1 == q.1 && t.2.2 == q.2) &&
  (e.needs.all fun q => T.any fun t => t.2.1 == q.1 && t.2.2 == q.2) &&
  (f.needs.all fun q => T.any fun t => (if t.1 == .exterior then t.2.1 else t.1) == q.1 && t.2.2 == q.2) &&
  ([Location.interior, .boundary].all fun l => (T.any fun t => t.1 == l) && (T.any fun t => t.2.1 == l) &&
    T.any fun t => t.2.2 == l)

theorem consistentUnion_of_met {d e f : Demand} {x y z l : P → Location} (h : ∀ p, PartLocations (x p) (y p) (z p))
    (hd : d.Met x l) (he : e.Met y l) (hf : f.Met z l)
    (hx : ∀ q ∈ [Location.interior, .boundary], ∃ p, x p = q) (hy : ∀ q ∈ [Location.interior, .boundary], ∃ p, y p = q)
    (hl : ∀ q ∈ [Location.interior, .boundary], ∃ p, l p = q) : consistentUnion d e f = true := by
  have hz : ∀ p, z p = if x p == .exterior then y p else x p := by
    intro p
    rcases h p with ⟨h1, h2⟩ | ⟨h1, h2⟩ | ⟨h1, h2, h3⟩
    · simp [h1, h2]
    · rw [h2, h1]
      cases x p <;> rfl
    · simp [h1, h3]
  have key : ∀ p, (x p, y p, l p) ∈ allTriples.filter fun t =>
    (t.1 == .exterior || t.2.1 == .exterior || (t.1 == .boundary && t.2.1 == .boundary)) &&
      d.allows t.1 t.2.2 && e.allows t.2.1 t.2.2 &&
      f.allows (if t.1 == .exterior then t.2.1 else t.1) t.2.2 := by
    intro p
    simp only [List.mem_filter, allTriples, List.mem_flatMap, List.mem_map, Bool.and_eq_true]
    refine ⟨⟨_, mem_allLocations _, _, mem_allLocations _, _, mem_allLocations _, rfl⟩,
      ⟨⟨?_, hd.allows p⟩, he.allows p⟩, ?_⟩
    · rcases h p with ⟨h1, h2⟩ | ⟨h1, h2⟩ | ⟨h1, h2, h3⟩ <;> simp [*]
    · rw [← hz]
      exact hf.allows p
  simp only [consistentUnion, Bool.and_eq_true, List.all_eq_true, List.any_eq_true, beq_iff_eq]
  refine ⟨⟨⟨?_, ?_⟩, ?_⟩, ?_⟩
  · intro q hq
    obtain ⟨p, h1, h2⟩ := hd.needs q hq
    exact ⟨_, key p, h1, h2⟩
  · intro q hq
    obtain ⟨p, h1, h2⟩ := he.needs q hq
    exact ⟨_, key p, h1, h2⟩
  · intro q hq
    obtain ⟨p, h1, h2⟩ := hf.needs q hq
    refine ⟨_, key p, ?_, h2⟩
    rw [← h1, hz]
    simp
  · intro q hq
    obtain ⟨p1, h1⟩ := hx q hq
    obtain ⟨p2, h2⟩ := hy q hq
    obtain ⟨p3, h3⟩ := hl q hq
    exact ⟨⟨⟨_, key p1, h1⟩, ⟨_, key p2, h2⟩⟩, ⟨_, key p3, h3⟩⟩

/-- The table for unions. -/
theorem unite_of_consistent (a b c : Relation)
    (h : consistentUnion (arealDemand a) (arealDemand b) (arealDemand c) = true) : c ∈ a.unite b := by
  have key : ∀ a ∈ allRelations, ∀ b ∈ allRelations, ∀ c ∈ allRelations,
      consistentUnion (arealDemand a) (arealDemand b) (arealDemand c) = true → c ∈ a.unite b := by decide +kernel
  exact key a (mem_allRelations a) b (mem_allRelations b) c (mem_allRelations c) h

end Orient
