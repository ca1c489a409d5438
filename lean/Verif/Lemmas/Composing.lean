import Verif.Spec.Compose
import Verif.Spec.Locations

/-! # Composition tables

A relation forbids some pairs of locations and needs others.  Three relations are impossible together if a needed
pair is not part of any triple of locations which is allowed by all three of them. -/

namespace Orient

def allRelations : List Relation :=
  [.disjoint, .touch, .cross, .overlap, .cover, .encloses, .composite, .equal, .component, .enclosed, .within]

theorem mem_allRelations (r : Relation) : r ∈ allRelations := by
  cases r <;> simp [allRelations]

def allLocations : List Location := [.exterior, .boundary, .interior]

theorem mem_allLocations (l : Location) : l ∈ allLocations := by
  cases l <;> simp [allLocations]

/-- What a relation says about the pairs of locations of points. -/
structure Demand where
  allows : Location → Location → Bool
  needs : List (Location × Location)

/-- The demand is met by the locations of points. -/
structure Demand.Met {P : Type} (d : Demand) (l l' : P → Location) : Prop where
  allows : ∀ p, d.allows (l p) (l' p) = true
  needs : ∀ q ∈ d.needs, ∃ p, l p = q.1 ∧ l' p = q.2

def allTriples : List (Location × Location × Location) :=
  allLocations.flatMap fun x => allLocations.flatMap fun y => allLocations.map fun z => (x, y, z)

/-- The triples of locations allowed by three demands. -/
def allowedTriples (d e f : Demand) : List (Location × Location × Location) :=
  allTriples.filter fun t => d.allows t.1 t.2.1 && e.allows t.2.1 t.2.2 && f.allows t.1 t.2.2

/-- Three demands can be met together; there are points which have the locations `x`, `y` and `z` with respect to
the geometries. -/
def consistent (d e f : Demand) (x y z : List Location) : Bool :=
  let T := allowedTriples d e f
  (d.needs.all fun q => T.any fun t => t.1 == q.1 && t.2.1 == q.2) &&
  (e.needs.all fun q => T.any fun t => t.2.1 == q.1 && t.2.2 == q.2) &&
  (f.needs.all fun q => T.any fun t => t.1 == q.1 && t.2.2 == q.2) &&
  (x.all fun l => T.any fun t => t.1 == l) && (y.all fun l => T.any fun t => t.2.1 == l) &&
  (z.all fun l => T.any fun t => t.2.2 == l)

theorem consistent_of_met {P : Type} {d e f : Demand} {x y z : List Location} {l l' l'' : P → Location}
    (hd : d.Met l l') (he : e.Met l' l'') (hf : f.Met l l'') (hx : ∀ q ∈ x, ∃ p, l p = q)
    (hy : ∀ q ∈ y, ∃ p, l' p = q) (hz : ∀ q ∈ z, ∃ p, l'' p = q) : consistent d e f x y z = true := by
  have key : ∀ p, (l p, l' p, l'' p) ∈ allowedTriples d e f := by
    intro p
    simp only [allowedTriples, List.mem_filter, allTriples, List.mem_flatMap, List.mem_map, Bool.and_eq_true]
    exact ⟨⟨_, mem_allLocations _, _, mem_allLocations _, _, mem_allLocations _, rfl⟩,
      ⟨hd.allows p, he.allows p⟩, hf.allows p⟩
  simp only [consistent, Bool.and_eq_true, List.all_eq_true, List.any_eq_true, beq_iff_eq]
  refine ⟨⟨⟨⟨⟨?_, ?_⟩, ?_⟩, ?_⟩, ?_⟩, ?_⟩
  · intro q hq
    obtain ⟨p, h1, h2⟩ := hd.needs q hq
    exact ⟨_, key p, h1, h2⟩
  · intro q hq
    obtain ⟨p, h1, h2⟩ := he.needs q hq
    exact ⟨_, key p, h1, h2⟩
  · intro q hq
    obtain ⟨p, h1, h2⟩ := hf.needs q hq
    exact ⟨_, key p, h1, h2⟩
  · intro q hq
    obtain ⟨p, h⟩ := hx q hq
    exact ⟨_, key p, h⟩
  · intro q hq
    obtain ⟨p, h⟩ := hy q hq
    exact ⟨_, key p, h⟩
  · intro q hq
    obtain ⟨p, h⟩ := hz q hq
    exact ⟨_, key p, h⟩

/-- What a relation of areal geometries says. -/
def arealDemand : Relation → Demand
  | .disjoint => ⟨fun x y => x == .exterior || y == .exterior, []⟩
  | .touch => ⟨fun x y => x == .exterior || y == .exterior || (x == .boundary && y == .boundary),
      [(.boundary, .boundary)]⟩
  | .overlap => ⟨fun _ _ => true, [(.interior, .interior), (.interior, .exterior), (.exterior, .interior)]⟩
  | .equal => ⟨fun x y => x == y, []⟩
  | .within => ⟨fun x y => x == .exterior || y == .interior, []⟩
  | .cover => ⟨fun x y => y == .exterior || x == .interior, []⟩
  | .component => ⟨fun x y => x == .exterior || x == y, [(.exterior, .interior)]⟩
  | .composite => ⟨fun x y => y == .exterior || x == y, [(.interior, .exterior)]⟩
  | .enclosed => ⟨fun x y => x == .exterior || y == .interior || (x == .boundary && y == .boundary),
      [(.boundary, .interior), (.boundary, .boundary)]⟩
  | .encloses => ⟨fun x y => y == .exterior || x == .interior || (x == .boundary && y == .boundary),
      [(.interior, .boundary), (.boundary, .boundary)]⟩
  | .cross => ⟨fun _ _ => false, []⟩

/-- What a relation of a linear geometry to an areal one says. -/
def linearDemand : Relation → Demand
  | .disjoint => ⟨fun x y => x == .exterior || (x == .boundary && y == .exterior), []⟩
  | .within => ⟨fun x y => x == .exterior || (x == .boundary && y == .interior), []⟩
  | .component => ⟨fun x y => x == .exterior || (x == .boundary && y == .boundary), []⟩
  | .enclosed => ⟨fun x y => x == .exterior || (x == .boundary && y != .exterior),
      [(.boundary, .interior), (.boundary, .boundary)]⟩
  | .touch => ⟨fun x y => x == .exterior || (x == .boundary && y != .interior),
      [(.boundary, .exterior), (.boundary, .boundary)]⟩
  | .cross => ⟨fun x _ => x == .exterior || x == .boundary, [(.boundary, .interior), (.boundary, .exterior)]⟩
  | _ => ⟨fun _ _ => false, []⟩

/-- What a relation of linear geometries says. -/
def linesDemand : Relation → Demand
  | .disjoint => ⟨fun x y => x == .exterior || y == .exterior, []⟩
  | .equal => ⟨fun x y => x == y && x != .interior, []⟩
  | .component => ⟨fun x y => x == .exterior || (x == .boundary && y == .boundary), []⟩
  | .composite => ⟨fun x y => y == .exterior || (x == .boundary && y == .boundary), []⟩
  | .overlap | .cross | .touch => ⟨fun x y => x != .interior && y != .interior, [(.boundary, .boundary)]⟩
  | _ => ⟨fun _ _ => false, []⟩

section

variable {P : Type} {l l' l'' : P → Location} {r r' r'' : Relation}

theorem ArealLocations.met (h : ArealLocations l l' r) : (arealDemand r).Met l l' := by
  cases r <;> simp only [ArealLocations] at h <;>
    refine ⟨?_, ?_⟩ <;>
    simp only [arealDemand, Bool.or_eq_true, Bool.and_eq_true, beq_iff_eq, List.mem_cons, List.not_mem_nil,
      or_false, forall_eq_or_imp, forall_eq, IsEmpty.forall_iff, implies_true] <;>
    first
    | exact h
    | (intro p; have := h p; cases e : l p <;> cases e' : l' p <;> simp_all)
    | (intro p; obtain ⟨h1, h2⟩ := h; have := h2 p; cases e : l p <;> cases e' : l' p <;> simp_all)
    | (intro p; obtain ⟨h1, h2⟩ := h; have := h1 p; cases e : l p <;> cases e' : l' p <;> simp_all)
    | tauto

theorem LinearLocations.met (hl : ∀ p, l p ≠ .interior) (h : LinearLocations l l' r) :
    (linearDemand r).Met l l' := by
  cases r <;> simp only [LinearLocations] at h <;>
    refine ⟨?_, ?_⟩ <;>
    simp only [linearDemand, Bool.or_eq_true, Bool.and_eq_true, beq_iff_eq, bne_iff_ne, List.mem_cons,
      List.not_mem_nil, or_false, forall_eq_or_imp, forall_eq, IsEmpty.forall_iff, implies_true] <;>
    first
    | exact h
    | (intro p; have := hl p; cases e : l p <;> simp_all)
    | tauto

end

/-- The table for areal geometries. -/
theorem compose_of_consistent (a b c : Relation)
    (h : consistent (arealDemand a) (arealDemand b) (arealDemand c) [.interior, .boundary] [.interior, .boundary]
      [.interior, .boundary] = true) : c ∈ a.compose b := by
  have key : ∀ a ∈ allRelations, ∀ b ∈ allRelations, ∀ c ∈ allRelations,
      consistent (arealDemand a) (arealDemand b) (arealDemand c) [.interior, .boundary] [.interior, .boundary]
        [.interior, .boundary] = true → c ∈ a.compose b := by decide +kernel
  exact key a (mem_allRelations a) b (mem_allRelations b) c (mem_allRelations c) h

/-- The table for a linear geometry and two areal ones. -/
theorem composeLinear_of_consistent (a b c : Relation)
    (h : consistent (linearDemand a) (arealDemand b) (linearDemand c) [.boundary] [.interior, .boundary]
      [.interior, .boundary] = true) : c ∈ a.composeLinear b := by
  have key : ∀ a ∈ allRelations, ∀ b ∈ allRelations, ∀ c ∈ allRelations,
      consistent (linearDemand a) (arealDemand b) (linearDemand c) [.boundary] [.interior, .boundary]
        [.interior, .boundary] = true → c ∈ a.composeLinear b := by decide +kernel
  exact key a (mem_allRelations a) b (mem_allRelations b) c (mem_allRelations c) h

/-- The table for two linear geometries and an areal one. -/
theorem composeLines_of_consistent (a b c : Relation)
    (h : consistent (linesDemand a) (linearDemand b) (linearDemand c) [.boundary] [.boundary] [] = true) :
    c ∈ a.composeLines b := by
  have key : ∀ a ∈ allRelations, ∀ b ∈ allRelations, ∀ c ∈ allRelations,
      consistent (linesDemand a) (linearDemand b) (linearDemand c) [.boundary] [.boundary] [] = true →
        c ∈ a.composeLines b := by decide +kernel
  exact key a (mem_allRelations a) b (mem_allRelations b) c (mem_allRelations c) h

end Orient
