import Verif.Props.Range
import Verif.Props.Cart
import Verif.Props.Indexer
import Verif.Props.Decomp
import Verif.Props.Container
import Verif.Props.UnionFind
import Verif.Props.Components
import Verif.Props.Masks
import Verif.Props.RegionHash
import Verif.Props.DistHash
import Verif.Props.Halo
import Verif.Props.Neighbors
import Verif.Props.SendRecv
import Verif.Props.Disperse
import Verif.Props.Collect
import Verif.Props.ExchangeOrder
import Verif.Props.RequestTimers
import Verif.Props.Handshake
import Verif.Props.Editor
import Verif.Props.Component
import Verif.Props.Array
import Verif.Props.Geometry
import Verif.Props.LocalCoords
import Verif.Props.Cells
import Verif.Props.GeometryFields
import Verif.Props.OverlapAccel
import Verif.Props.OverlapTolerance
import Verif.Props.Aggregate
import Verif.Props.Transfer
import Verif.Props.Assembly
import Verif.Props.Minimize
import Verif.Props.ReceiverDistance
import Verif.Props.Donors
import Verif.Props.Options
import Verif.Props.Text
import Verif.Props.Pool
import Verif.Props.Receivers
import Verif.Props.Occlusion
import Verif.Lemmas.Exterior
import Verif.Props.Defined
import Verif.Props.Xintout
import Verif.Lemmas.Xintout
import Verif.Props.XintoutImport
import Verif.Model.XintoutImport
import Verif.Props.DonorChoice
import Verif.Model.Exchange
import Verif.Props.Exchange
import Verif.Model.DecompDims
import Verif.Props.DecompDims
import Verif.Model.Errors
import Verif.Props.Errors
import Verif.Model.BroadcastAny
import Verif.Props.BroadcastAny
import Verif.Model.FloatingRef
import Verif.Props.FloatingRef
import Verif.Props.Boundaries
import Verif.Model.Bindings
import Verif.Props.Bindings
import Verif.Model.ExchangerLife
import Verif.Props.ExchangerLife
import Verif.Lemmas.ColOrder
import Verif.Lemmas.Overlap
import Verif.Lemmas.OverlapSides
import Verif.Lemmas.UniformWorld
import Verif.Model.Overlap
import Verif.Props.Overlap
import Verif.Props.OverlapComplete
import Verif.Props.OverlapLimits
import Verif.Props.OverlapCollect
import Verif.Props.OverlapCollectLimits
import Verif.Model.OverlapVolumes
import Verif.Props.OverlapVolumes
import Verif.Model.Fill
import Verif.Props.Fill
import Verif.Props.FillExchange
import Verif.Model.Schedule
import Verif.Props.Schedule
import Verif.Model.XintoutFile
import Verif.Props.XintoutFile
import Verif.Props.Independence
import Verif.Props.IndependenceSearch
import Verif.Model.GridData
import Verif.Lemmas.GridData
import Verif.Props.GridData
import Verif.Model.Pipeline
import Verif.Props.EndToEnd
import Verif.Model.Collective
import Verif.Model.XintoutErrors
import Verif.Lemmas.Collective
import Verif.Props.XintoutErrors
import Verif.Model.Threads
import Verif.Props.Threads
import Verif.Model.Optional
import Verif.Props.Optional
import Verif.Model.Handle
import Verif.Props.Handle
import Verif.Model.Record
import Verif.Props.Record
import Verif.Model.Reassembly
import Verif.Props.Reassembly
import Verif.Model.OptionsLife
import Verif.Props.OptionsLife
import Verif.Model.Concurrent
import Verif.Props.Concurrent
import Verif.Model.CInterface
import Verif.Props.CInterface
import Verif.Model.Retrieve
import Verif.Props.Retrieve
import Verif.Model.DistField
import Verif.Props.DistField
import Verif.Model.Profiler
import Verif.Props.Profiler
import Verif.Model.CollectiveValues
import Verif.Lemmas.CollectiveValues
import Verif.Model.DomainGrids
import Verif.Props.DomainGrids
import Verif.Model.Logger
import Verif.Props.Logger
import Verif.Model.StringPrint
import Verif.Props.StringPrint
import Verif.Model.Serialize
import Verif.Props.Serialize
import Verif.Model.ScopeGuard
import Verif.Props.ScopeGuard
import Verif.Model.Vector
import Verif.Props.Vector
import Verif.Model.ArrayOps
import Verif.Props.ArrayOps
import Verif.Model.ArrayStorage
import Verif.Props.ArrayStorage
import Verif.Model.ForEach
import Verif.Props.ForEach
import Verif.Model.ExchangeOps
import Verif.Props.ExchangeOps
import Verif.Model.ComponentCalls
import Verif.Props.ComponentCalls
import Verif.Model.BoxAlgebra
import Verif.Props.BoxAlgebra
import Verif.Model.CTables
import Verif.Props.CTables
import Verif.Model.ExchangerComm
import Verif.Props.ExchangerComm
import Verif.Model.ImportCalls
import Verif.Props.ImportCalls
import Verif.Model.ImportComm
import Verif.Props.ImportComm
import Verif.Model.OverlapComm
import Verif.Props.OverlapComm
import Verif.Model.Padding
import Verif.Props.Padding
import Verif.Model.GeometryCalls
import Verif.Props.GeometryCalls
import Verif.Model.MapStorage
import Verif.Props.MapStorage
import Verif.Model.AllOptions
import Verif.Props.AllOptions
import Verif.Model.Lifetimes
import Verif.Lemmas.Lifetimes
import Verif.Props.Lifetimes
import Verif.Model.HaloPool
import Verif.Lemmas.HaloPool
import Verif.Props.HaloPool
import Verif.Model.BindMove
import Verif.Props.BindMove
import Verif.Model.ArrayViews
import Verif.Props.ArrayViews
import Verif.Model.DataTypes
import Verif.Props.DataTypes
import Verif.Model.CellOps
import Verif.Props.CellOps
