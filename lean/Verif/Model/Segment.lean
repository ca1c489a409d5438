import Verif.Model.Base

/-! Model of `/repo/orient/core/segment.py`. -/

namespace Orient.segment

variable {K : Type}

/-- `/repo/orient/core/segment.py:8-13`. -/
def locatePoint (segment : Segment K) (point : Point K) (context : Context K) : Location :=
  if context.segmentContainsPoint segment point then .boundary else .exterior

/-- `/repo/orient/core/segment.py:16-19`. -/
def relateSegment (goal test : Segment K) (context : Context K) : Relation :=
  context.segmentsRelation test goal

end Orient.segment
