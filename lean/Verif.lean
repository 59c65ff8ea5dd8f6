import Verif.Model.Py
import Verif.Model.SAP
import Verif.Model.SAPReach
import Verif.Model.SAPClient
import Verif.Spec.Chunk
import Verif.Spec.ListMachine
import Verif.Lemmas.SAP
import Verif.Lemmas.SAPOps
import Verif.Lemmas.SAPLoops
import Verif.Lemmas.SAPReach
import Verif.Lemmas.SAPClient
import Verif.Model.Mover
import Verif.Spec.Pass
import Verif.Lemmas.Mover
import Verif.Lemmas.MoverUniform
import Verif.Lemmas.MoverPost
import Verif.Lemmas.MoverReach
import Verif.Lemmas.PassLog
import Verif.Props.Storage
import Verif.Props.Mover
import Verif.Model.Traj
import Verif.Model.Recorded
import Verif.Spec.Traj
import Verif.Lemmas.Traj
import Verif.Lemmas.TrajPass
import Verif.Props.Traj
import Verif.Model.Geometry
import Verif.Model.LineMesh
import Verif.Model.Track
import Verif.Model.BC
import Verif.Model.CppMover
import Verif.Spec.Geometry
import Verif.Spec.Track
import Verif.Lemmas.Geometry
import Verif.Lemmas.Track
import Verif.Lemmas.TrackSafe
import Verif.Lemmas.TrackInv
import Verif.Lemmas.LineMesh
import Verif.Props.Geometry
import Verif.Props.Track
import Verif.Props.BC
import Verif.Spec.Stores
import Verif.Spec.Field
import Verif.Model.OutLoop
import Verif.Model.Field
import Verif.Model.Species
import Verif.Lemmas.OutLoop
import Verif.Lemmas.MapLoop
import Verif.Lemmas.Field
import Verif.Props.Field
import Verif.Spec.Species
import Verif.Spec.Output
import Verif.Model.Output
import Verif.Lemmas.Species
import Verif.Lemmas.Output
import Verif.Props.Species
import Verif.Props.Output
import Verif.Model.Topology
import Verif.Model.RadialMesh
import Verif.Model.CppSAP
import Verif.Spec.Topology
import Verif.Lemmas.Topology
import Verif.Lemmas.CppSAP
import Verif.Props.Mesh
import Verif.Props.CppStore
import Verif.Model.EField
import Verif.Spec.EField
import Verif.Lemmas.EField
import Verif.Props.EField
import Verif.Model.Sources
import Verif.Spec.Sources
import Verif.Lemmas.Sources
import Verif.Lemmas.SourcesMore
import Verif.Props.Sources
import Verif.Model.CppGeometry
import Verif.Spec.Hull
import Verif.Spec.CppGeometry
import Verif.Lemmas.Hull
import Verif.Lemmas.CppGeometry
import Verif.Lemmas.CppInside
import Verif.Props.CppGeometry
import Verif.Model.CppPass
import Verif.Spec.CppPass
import Verif.Lemmas.CppPass
import Verif.Props.CppMover
import Verif.Model.CppTrack
import Verif.Spec.CppTrack
import Verif.Lemmas.CppTrack
import Verif.Props.CppTrack
import Verif.Model.CppEField
import Verif.Spec.CppEField
import Verif.Lemmas.CppEField
import Verif.Props.CppEField
import Verif.Model.TimeLoop
import Verif.Spec.TimeLoop
import Verif.Lemmas.TimeLoop
import Verif.Props.TimeLoop
import Verif.Model.Simulation
import Verif.Spec.Straight
import Verif.Lemmas.Straight
import Verif.Lemmas.LineCross
import Verif.Lemmas.Simulation
import Verif.Props.Straight
import Verif.Props.Simulation
import Verif.Spec.Leapfrog
import Verif.Lemmas.Leapfrog
import Verif.Props.Leapfrog
import Verif.Props.SquareMesh
import Verif.Spec.Wall
import Verif.Lemmas.Wall
import Verif.Props.Wall
import Verif.Spec.Tally
import Verif.Lemmas.Tally
import Verif.Props.Tally
import Verif.Model.TrajLoop
import Verif.Spec.TrajLoop
import Verif.Lemmas.TrajLoop
import Verif.Props.TrajLoop
import Verif.Model.Setup
import Verif.Spec.Setup
import Verif.Props.Setup
import Verif.Model.CppProgram
import Verif.Spec.CppProgram
import Verif.Lemmas.CppProgram
import Verif.Props.CppProgram
import Verif.Model.MeshMark
import Verif.Spec.MeshMark
import Verif.Props.MeshMark
import Verif.Props.NamedWalls
import Verif.Model.RectMesh
import Verif.Spec.RectMesh
import Verif.Spec.Billiard
import Verif.Lemmas.Billiard
import Verif.Lemmas.RectMesh
import Verif.Props.Billiard
import Verif.Props.RectMesh
import Verif.Lemmas.RectBound
import Verif.Props.RectBound
import Verif.Model.Locate
import Verif.Spec.Locate
import Verif.Props.Locate
import Verif.Model.MeshBuild
import Verif.Spec.MeshBuild
import Verif.Lemmas.MeshBuild
import Verif.Props.MeshBuild
import Verif.Model.RectBuild
import Verif.Props.RectBuild
import Verif.Model.Poisson
import Verif.Spec.Poisson
import Verif.Lemmas.Poisson
import Verif.Props.Poisson
import Verif.Props.PoissonLoop
import Verif.Spec.Shells
import Verif.Props.Shells
import Verif.Model.Elements
import Verif.Spec.Elements
import Verif.Props.Elements
import Verif.Props.ElementsLoop
import Verif.Spec.Plasma
import Verif.Props.Plasma
import Verif.Model.Sector
import Verif.Spec.Sector
import Verif.Lemmas.Sector
import Verif.Lemmas.Polar
import Verif.Lemmas.PolarGrid
import Verif.Props.Sector
import Verif.Props.ElementsDensity
import Verif.Spec.Crossed
import Verif.Model.Crossed
import Verif.Lemmas.Crossed
import Verif.Lemmas.CrossedGrid
import Verif.Props.Crossed
import Verif.Model.TrajFiles
import Verif.Spec.TrajFiles
import Verif.Lemmas.TrajFiles
import Verif.Props.TrajFiles
import Verif.Model.Box
import Verif.Spec.Box
import Verif.Lemmas.Box
import Verif.Lemmas.BoxGrid
import Verif.Props.Box
import Verif.Spec.Cross
import Verif.Lemmas.Cross
import Verif.Lemmas.CrossPlane
import Verif.Lemmas.CrossBox
import Verif.Lemmas.CrossGrid
import Verif.Lemmas.CrossSector
import Verif.Props.Cross
import Verif.Spec.Walls
import Verif.Lemmas.Walls
import Verif.Lemmas.CrossedRect
import Verif.Lemmas.CrossedMark
import Verif.Props.CrossedRect
import Verif.Spec.Energy
import Verif.Props.Energy
import Verif.Spec.SheetEnergy
import Verif.Props.SheetEnergy
import Verif.Model.UserBC
import Verif.Spec.UserBC
import Verif.Lemmas.UserBC
import Verif.Props.UserBC
import Verif.Model.CppArrays
import Verif.Props.CppArrays
import Verif.Model.CppRun
import Verif.Spec.CppRun
import Verif.Props.CppRun
import Verif.Model.CppLoop
import Verif.Model.MeshTables
import Verif.Spec.CppLoop
import Verif.Spec.MeshTables
import Verif.Spec.SelfForce
import Verif.Spec.Order
import Verif.Spec.Passive
import Verif.Spec.Reverse
import Verif.Spec.Units
import Verif.Spec.ShellField
import Verif.Lemmas.CppLoop
import Verif.Props.CppLoop
import Verif.Props.MeshTables
import Verif.Props.SelfForce
import Verif.Props.Order
import Verif.Props.Passive
import Verif.Props.Reverse
import Verif.Props.Units
import Verif.Model.FieldCpp
import Verif.Props.FieldCpp
import Verif.Spec.Tuning
import Verif.Props.Tuning
import Verif.Props.RectRun
import Verif.Props.ShellField
import Verif.Spec.CppPlasma
import Verif.Lemmas.CppPlasma
import Verif.Props.CppPlasma
import Verif.Model.CppNamed
import Verif.Spec.CppShells
import Verif.Props.CppShells
import Verif.Model.IntervalMesh
import Verif.Props.Interval
import Verif.Spec.Permute
import Verif.Props.Permute
import Verif.Props.CppPermute
import Verif.Model.MeshSources
import Verif.Props.MeshSources
import Verif.Props.Applied
import Verif.Model.UserLists
import Verif.Spec.UserLists
import Verif.Props.UserLists
import Verif.Spec.Superpose
import Verif.Props.Superpose
import Verif.Spec.Acting
import Verif.Props.Acting
import Verif.Spec.Similar
import Verif.Props.Similar
import Verif.Props.SimilarRun
import Verif.Spec.ReverseMesh
import Verif.Props.ReverseMesh
import Verif.Props.CppTuning
import Verif.Spec.Renumber
import Verif.Props.Renumber
import Verif.Props.Applied2
import Verif.Spec.Divide
import Verif.Props.Divide
import Verif.Props.OutputCheck
import Verif.Model.Rounded
import Verif.Spec.Rounded
import Verif.Props.Rounded
import Verif.Model.CppRounded
import Verif.Spec.CppRounded
import Verif.Props.CppRounded
import Verif.Model.RoundedTwin
import Verif.Model.RoundedClock
import Verif.Spec.RoundedTwin
import Verif.Spec.RoundError
import Verif.Props.RoundedTwin
import Verif.Props.RoundedRun
import Verif.Props.RoundedNeutral
import Verif.Props.RoundedFirst
import Verif.Props.RoundError
import Verif.Props.RoundedClock
