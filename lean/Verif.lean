import Verif.Props.Geometry
import Verif.Props.Hashing
import Verif.Props.Index
import Verif.Props.Body
import Verif.Props.Momentum
import Verif.Props.Limits
import Verif.Props.Solve
import Verif.Props.Space
import Verif.Props.SpaceFindings
import Verif.Props.PostStep
import Verif.Props.Mass
import Verif.Props.Shapes
import Verif.Props.Polygon
import Verif.Props.Rays
import Verif.Props.RayRadius
import Verif.Props.Hull
import Verif.Props.Gjk
import Verif.Props.Collide
import Verif.Props.PolyLine
import Verif.Props.Simplify
import Verif.Props.March
import Verif.Props.MarchClosed
import Verif.Props.Queries
import Verif.Props.SpaceHash
import Verif.Props.Pairs
import Verif.Props.Memory
import Verif.Props.Events
import Verif.Props.MassIntegral
import Verif.Props.RayShapes
import Verif.Props.RaySegments
import Verif.Props.ContactFound
import Verif.Props.ContactExamples
import Verif.Props.Waking
import Verif.Props.Motion
import Verif.Props.Dispatch
import Verif.Props.ArbView
import Verif.Props.Scene
import Verif.Props.Rest
import Verif.Props.HashRay
import Verif.Props.Nodes
import Verif.Props.Correct
import Verif.Props.CorrectExamples
import Verif.Props.Push
import Verif.Props.PushExamples
import Verif.Props.Energy
import Verif.Props.EnergyFriction
import Verif.Props.EnergyGroove
import Verif.Props.EnergyExamples
import Verif.Props.Bounce
import Verif.Props.BounceExamples
import Verif.Props.Spring
import Verif.Props.SpringExamples
import Verif.Props.Alone
import Verif.Props.AloneRuns
import Verif.Props.AloneExamples
import Verif.Props.Engine
import Verif.Props.EngineExamples
import Verif.Props.Sim
import Verif.Props.SimExamples
import Verif.Props.SimStep
import Verif.Props.SimBounce
import Verif.Props.SimBounceExamples
import Verif.Props.SimPress
import Verif.Props.SimPressExamples
import Verif.Props.SimFloor
import Verif.Props.SimFloorExamples
import Verif.Props.Flight
import Verif.Props.FlightExamples
import Verif.Props.Billiards
import Verif.Props.BilliardsExamples
import Verif.Props.Angles
import Verif.Model.Draw
import Verif.Props.Draw
import Verif.Proofs.Load
import Verif.Props.Load
import Verif.Props.LoadExamples
