import Verif.Model.Planar
import Verif.Spec.Reference
import Verif.Spec.Geometry
import Verif.Spec.Context
import Verif.Spec.EvenOdd
import Verif.Spec.Affine
import Verif.Spec.Linear
import Verif.Spec.Boundary
import Verif.Spec.Compound
import Verif.Spec.Joined
import Verif.Lemmas.Geometry
import Verif.Lemmas.Transversal
import Verif.Lemmas.Contour
import Verif.Lemmas.Reference
import Verif.Lemmas.SegmentsRel
import Verif.Lemmas.Parity
import Verif.Lemmas.Region
import Verif.Lemmas.RegionPath
import Verif.Lemmas.Orientation
import Verif.Lemmas.Simple
import Verif.Lemmas.SimpleCheck
import Verif.Lemmas.ValidCheck
import Verif.Lemmas.Germ
import Verif.Lemmas.Loop
import Verif.Lemmas.Cover
import Verif.Lemmas.Crossed
import Verif.Lemmas.SegmentInMultisegment
import Verif.Lemmas.SimpleEdges
import Verif.Lemmas.SegmentInContour
import Verif.Lemmas.Sweep.State
import Verif.Lemmas.Sweep.Detect
import Verif.Lemmas.Sweep.Run
import Verif.Lemmas.Sweep.Invariant
import Verif.Lemmas.Sweep.Refine
import Verif.Lemmas.Sweep.Terminate
import Verif.Lemmas.Sweep.Register
import Verif.Lemmas.Sweep.Settles
import Verif.Lemmas.Sweep.Collect
import Verif.Lemmas.Sweep.OpenLinear
import Verif.Lemmas.Sweep.Kinetic
import Verif.Lemmas.Sweep.Cuts
import Verif.Lemmas.Sweep.Order
import Verif.Lemmas.Sweep.Settled
import Verif.Lemmas.Sweep.Advance
import Verif.Lemmas.Sweep.Handle
import Verif.Lemmas.Sweep.Step
import Verif.Lemmas.Sweep.Group
import Verif.Lemmas.Sweep.Told
import Verif.Lemmas.Sweep.Counts
import Verif.Lemmas.Sweep.Position
import Verif.Lemmas.Sweep.Sided
import Verif.Lemmas.Sweep.SidedStep
import Verif.Lemmas.Sweep.Sides
import Verif.Lemmas.Sweep.Describe
import Verif.Lemmas.Sweep.Crossing
import Verif.Lemmas.Sweep.Lowers
import Verif.Lemmas.Sweep.Corner
import Verif.Lemmas.Sweep.Area
import Verif.Lemmas.Sweep.Column
import Verif.Lemmas.Sweep.Locate
import Verif.Lemmas.Sweep.CrossSides
import Verif.Lemmas.Sweep.Compound
import Verif.Lemmas.Sweep.Relations
import Verif.Lemmas.Sweep.Scenes
import Verif.Lemmas.Jordan
import Verif.Lemmas.Sweep.Track
import Verif.Lemmas.Sweep.Complete
import Verif.Props.PointQueries
import Verif.Props.SegmentInSegment
import Verif.Props.PointInRegion
import Verif.Props.PointInCompound
import Verif.Props.Ranges
import Verif.Props.Verdicts
import Verif.Props.ContourEqual
import Verif.Props.SegmentInMultisegment
import Verif.Props.SegmentInContour
import Verif.Props.Sweeping
import Verif.Props.Multisegments
import Verif.Props.MultisegmentsComplete
import Verif.Props.MultisegmentsCross
import Verif.Props.SegmentInRegion
import Verif.Props.RegionRelations
import Verif.Lemmas.Contours
import Verif.Props.Jordan
import Verif.Props.ContourRelations
import Verif.Tests.Docstrings
import Verif.Props.Itself
import Verif.Spec.Multi
import Verif.Lemmas.Sweep.Union
import Verif.Lemmas.Sweep.Parts
import Verif.Props.MultiCheck
import Verif.Props.MultiregionRelations
import Verif.Props.MultipolygonRelations
import Verif.Props.Boxes
import Verif.Lemmas.Tables
import Verif.Lemmas.Areal
import Verif.Lemmas.Apart
import Verif.Props.PolygonRelations
import Verif.Props.MultiregionInPolygon
import Verif.Props.PolygonInPolygon
import Verif.Spec.Loose
import Verif.Lemmas.Touching
import Verif.Props.Connected
import Verif.Props.PolygonExamples
import Verif.Lemmas.Passing
import Verif.Lemmas.RegionSegment
import Verif.Props.SegmentBesideRegion
import Verif.Props.Swapped
import Verif.Spec.Ways
import Verif.Lemmas.Angle
import Verif.Lemmas.Sweep.Turns
import Verif.Lemmas.Ways
import Verif.Props.Moved
import Verif.Props.SameSets
import Verif.Props.SameSetsExamples
import Verif.Props.MovedRelations
import Verif.Props.MovedExamples
import Verif.Spec.Locations
import Verif.Spec.Compose
import Verif.Lemmas.Composing
import Verif.Props.Locations
import Verif.Props.Composition
import Verif.Props.CompositionExamples
import Verif.Props.Wrapping
import Verif.Spec.Joins
import Verif.Spec.Borders
import Verif.Lemmas.Joining
import Verif.Props.Joins
import Verif.Props.Borders
import Verif.Spec.Convex
import Verif.Lemmas.Convex
import Verif.Props.Convex
import Verif.Spec.Nodes
import Verif.Lemmas.Sweep.Agree
import Verif.Lemmas.Agree
import Verif.Lemmas.AgreeRelate
import Verif.Props.Nodes
import Verif.Props.NodesExamples
import Verif.Lemmas.Along
import Verif.Lemmas.AlongTests
import Verif.Props.SegmentAlongRegion
import Verif.Spec.Contacts
import Verif.Lemmas.Sweep.Effort
import Verif.Props.Effort
import Verif.Lemmas.Separate
import Verif.Props.Separate
import Verif.Model.Containers
import Verif.Model.Trees
import Verif.Spec.Containers
import Verif.Lemmas.Sweep.Queued
import Verif.Lemmas.Sweep.Containers
import Verif.Lemmas.Sweep.Trees
import Verif.Props.Containers
import Verif.Model.Division
import Verif.Spec.Division
import Verif.Lemmas.Sweep.Blur
import Verif.Lemmas.Sweep.Division
import Verif.Props.Division
import Verif.Props.DivisionExamples
import Verif.Spec.Stable
import Verif.Lemmas.Stable
import Verif.Props.Stable
import Verif.Props.Unstable
import Verif.Props.StableExamples
import Verif.Lemmas.Exhaust
import Verif.Props.Disconnected
import Verif.Props.DisconnectedExamples
import Verif.Spec.Crossing
import Verif.Lemmas.Sweep.Sharp
import Verif.Props.ExactAnswers
import Verif.Props.ExactPolygons
import Verif.Lemmas.AlongExact
import Verif.Props.ExactSegments
import Verif.Spec.Pairs
import Verif.Props.ExactPairs
import Verif.Props.SwappedAll
import Verif.Spec.Rewritten
import Verif.Props.MovedAll
import Verif.Props.Rewritten
import Verif.Props.PartsAll
import Verif.Spec.Widest
import Verif.Lemmas.Widest
import Verif.Lemmas.Met
import Verif.Lemmas.Sweep.GroupOrder
import Verif.Lemmas.Sweep.MetOrder
import Verif.Lemmas.Sweep.WideTurns
import Verif.Props.ExactMultisegments
import Verif.Spec.Trust
import Verif.Props.Trust
import Verif.Spec.Misread
import Verif.Props.ExactSegmentsAll
import Verif.Props.Turned
import Verif.Spec.Corners
import Verif.Props.ConvexSegments
import Verif.Props.Detour
import Verif.Spec.HoledSegments
import Verif.Props.ExactHoledSegments
import Verif.Props.Pieces
import Verif.Lemmas.Separated
import Verif.Props.LinearKinds
import Verif.Spec.Filled
import Verif.Props.Filled
import Verif.Props.BothBorders
import Verif.Spec.LinearJoins
import Verif.Props.LinearJoins
import Verif.Spec.LinearCompose
import Verif.Props.LinearCompose
import Verif.Spec.Carve
import Verif.Props.Carve
import Verif.Spec.Sides
import Verif.Props.Sides
import Verif.Props.BothSides
