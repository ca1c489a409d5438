import Verif.Model.Relate

/-! Model of `/repo/orient/planar.py`, the public API.  `context` stands for the value of
`_get_context() if context is None else context`. -/

namespace Orient.planar

variable {K : Type} [Field K] [LinearOrder K]

/-- `/repo/orient/planar.py:25-59`. -/
def pointInSegment (point : Point K) (segment : Segment K)
    (context : Context K) : Location :=
  Orient.segment.locatePoint segment point context

/-- `/repo/orient/planar.py:62-107`. -/
def segmentInSegment (left : Segment K) (right : Segment K)
    (context : Context K) : Relation :=
  Orient.segment.relateSegment right left context

/-- `/repo/orient/planar.py:110-149`. -/
def pointInMultisegment (point : Point K) (multisegment : Multisegment K)
    (context : Context K) : Location :=
  Orient.multisegment.locatePoint multisegment point context

/-- `/repo/orient/planar.py:152-203`. -/
def segmentInMultisegment (segment : Segment K) (multisegment : Multisegment K)
    (context : Context K) : Relation :=
  Orient.multisegment.relateSegment multisegment segment context

/-- `/repo/orient/planar.py:206-277`. -/
def multisegmentInMultisegment (left : Multisegment K) (right : Multisegment K)
    (context : Context K) : Py Relation :=
  Orient.multisegment.relateMultisegment right left context

/-- `/repo/orient/planar.py:280-312`. -/
def pointInContour (point : Point K) (contour : Contour K)
    (context : Context K) : Location :=
  Orient.contour.locatePoint contour point context

/-- `/repo/orient/planar.py:315-364`. -/
def segmentInContour (segment : Segment K) (contour : Contour K)
    (context : Context K) : Py Relation :=
  Orient.contour.relateSegment contour segment context

/-- `/repo/orient/planar.py:367-434`. -/
def multisegmentInContour (multisegment : Multisegment K) (contour : Contour K)
    (context : Context K) : Py Relation :=
  Orient.contour.relateMultisegment contour multisegment context

/-- `/repo/orient/planar.py:437-472`. -/
def contourInContour (left : Contour K) (right : Contour K)
    (context : Context K) : Py Relation :=
  Orient.contour.relateContour right left context

/-- `/repo/orient/planar.py:475-510`. -/
def pointInRegion (point : Point K) (region : Region K)
    (context : Context K) : Location :=
  Orient.region.locatePoint region point context

/-- `/repo/orient/planar.py:513-562`. -/
def segmentInRegion (segment : Segment K) (region : Region K)
    (context : Context K) : Py Relation :=
  Orient.region.relateSegment region segment context

/-- `/repo/orient/planar.py:565-630`. -/
def multisegmentInRegion (multisegment : Multisegment K) (region : Region K)
    (context : Context K) : Py Relation :=
  Orient.region.relateMultisegment region multisegment context

/-- `/repo/orient/planar.py:633-674`. -/
def contourInRegion (contour : Contour K) (region : Region K)
    (context : Context K) : Py Relation :=
  Orient.region.relateContour region contour context

/-- `/repo/orient/planar.py:677-725`. -/
def regionInRegion (left : Region K) (right : Region K)
    (context : Context K) : Py Relation :=
  Orient.region.relateRegion right left context

/-- `/repo/orient/planar.py:728-766`. -/
def pointInMultiregion (point : Point K) (multiregion : Multiregion K)
    (context : Context K) : Location :=
  Orient.multiregion.locatePoint multiregion point context

/-- `/repo/orient/planar.py:769-826`. -/
def segmentInMultiregion (segment : Segment K) (multiregion : Multiregion K)
    (context : Context K) : Py Relation :=
  Orient.multiregion.relateSegment multiregion segment context

/-- `/repo/orient/planar.py:829-901`. -/
def multisegmentInMultiregion (multisegment : Multisegment K) (multiregion : Multiregion K)
    (context : Context K) : Py Relation :=
  Orient.multiregion.relateMultisegment multiregion multisegment context

/-- `/repo/orient/planar.py:904-963`. -/
def contourInMultiregion (contour : Contour K) (multiregion : Multiregion K)
    (context : Context K) : Py Relation :=
  Orient.multiregion.relateContour multiregion contour context

/-- `/repo/orient/planar.py:966-1031`. -/
def regionInMultiregion (region : Region K) (multiregion : Multiregion K)
    (context : Context K) : Py Relation :=
  Orient.multiregion.relateRegion multiregion region context

/-- `/repo/orient/planar.py:1034-1118`. -/
def multiregionInMultiregion (left : Multiregion K) (right : Multiregion K)
    (context : Context K) : Py Relation :=
  Orient.multiregion.relateMultiregion right left context

/-- `/repo/orient/planar.py:1121-1170`. -/
def pointInPolygon (point : Point K) (polygon : Polygon K)
    (context : Context K) : Location :=
  Orient.polygon.locatePoint polygon point context

/-- `/repo/orient/planar.py:1173-1233`. -/
def segmentInPolygon (segment : Segment K) (polygon : Polygon K)
    (context : Context K) : Py Relation :=
  Orient.polygon.relateSegment polygon segment context

/-- `/repo/orient/planar.py:1236-1309`. -/
def multisegmentInPolygon (multisegment : Multisegment K) (polygon : Polygon K)
    (context : Context K) : Py Relation :=
  Orient.polygon.relateMultisegment polygon multisegment context

/-- `/repo/orient/planar.py:1312-1359`. -/
def contourInPolygon (contour : Contour K) (polygon : Polygon K)
    (context : Context K) : Py Relation :=
  Orient.polygon.relateContour polygon contour context

/-- `/repo/orient/planar.py:1362-1415`. -/
def regionInPolygon (region : Region K) (polygon : Polygon K)
    (context : Context K) : Py Relation :=
  Orient.polygon.relateRegion polygon region context

/-- `/repo/orient/planar.py:1418-1493`. -/
def multiregionInPolygon (multiregion : Multiregion K) (polygon : Polygon K)
    (context : Context K) : Py Relation :=
  Orient.polygon.relateMultiregion polygon multiregion context

/-- `/repo/orient/planar.py:1496-1596`. -/
def polygonInPolygon (left : Polygon K) (right : Polygon K)
    (context : Context K) : Py Relation :=
  Orient.polygon.relatePolygon right left context

/-- `/repo/orient/planar.py:1599-1646`. -/
def pointInMultipolygon (point : Point K) (multipolygon : Multipolygon K)
    (context : Context K) : Location :=
  Orient.multipolygon.locatePoint multipolygon point context

/-- `/repo/orient/planar.py:1649-1715`. -/
def segmentInMultipolygon (segment : Segment K) (multipolygon : Multipolygon K)
    (context : Context K) : Py Relation :=
  Orient.multipolygon.relateSegment multipolygon segment context

/-- `/repo/orient/planar.py:1718-1804`. -/
def multisegmentInMultipolygon (multisegment : Multisegment K) (multipolygon : Multipolygon K)
    (context : Context K) : Py Relation :=
  Orient.multipolygon.relateMultisegment multipolygon multisegment context

/-- `/repo/orient/planar.py:1807-1881`. -/
def contourInMultipolygon (contour : Contour K) (multipolygon : Multipolygon K)
    (context : Context K) : Py Relation :=
  Orient.multipolygon.relateContour multipolygon contour context

/-- `/repo/orient/planar.py:1884-1965`. -/
def regionInMultipolygon (region : Region K) (multipolygon : Multipolygon K)
    (context : Context K) : Py Relation :=
  Orient.multipolygon.relateRegion multipolygon region context

/-- `/repo/orient/planar.py:1968-2093`. -/
def multiregionInMultipolygon (multiregion : Multiregion K) (multipolygon : Multipolygon K)
    (context : Context K) : Py Relation :=
  Orient.multipolygon.relateMultiregion multipolygon multiregion context

/-- `/repo/orient/planar.py:2096-2241`. -/
def polygonInMultipolygon (polygon : Polygon K) (multipolygon : Multipolygon K)
    (context : Context K) : Py Relation :=
  Orient.multipolygon.relatePolygon multipolygon polygon context

/-- `/repo/orient/planar.py:2244-2375`. -/
def multipolygonInMultipolygon (left : Multipolygon K) (right : Multipolygon K)
    (context : Context K) : Py Relation :=
  Orient.multipolygon.relateMultipolygon right left context

end Orient.planar
