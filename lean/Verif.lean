import Verif.Model.Py
import Verif.Model.State
import Verif.Model.Runner
import Verif.Model.Result
import Verif.Model.Heap
import Verif.Props.State
import Verif.Props.Merge
import Verif.Props.Sync
import Verif.Props.Async
import Verif.Props.Parallel
import Verif.Props.ParallelRewrite
import Verif.Props.Result
import Verif.Props.Heap
import Verif.Model.Json
import Verif.Props.Json
import Verif.Model.Lattice
import Verif.Props.Lattice
import Verif.Model.Structure
import Verif.Props.Structure
import Verif.Props.StructureJson
import Verif.Props.Build
import Verif.Model.Neighborhood
import Verif.Model.SquareGrid
import Verif.Props.Neighborhood
import Verif.Props.SquareGrid
import Verif.Model.Life
import Verif.Model.Growth
import Verif.Props.Life
import Verif.Props.Growth
import Verif.Model.GridSetup
import Verif.Props.GridSetup
import Verif.Lemmas.RandomSites
import Verif.Props.RandomSites
import Verif.Model.Analyzer
import Verif.Spec.Analyzer
import Verif.Props.Analyzer
import Verif.Props.Phases
import Verif.Props.ResultAnalyzer
import Verif.Model.Viz
import Verif.Spec.Viz
import Verif.Props.Artist
import Verif.Props.Drawing
import Verif.Props.Animation
import Verif.Props.Voxels
import Verif.Model.Honeycomb
import Verif.Spec.Honeycomb
import Verif.Props.Honeycomb
import Verif.Model.Pymatgen
import Verif.Props.Pymatgen
import Verif.Lemmas.ParallelBy
import Verif.Spec.Parallel
import Verif.Props.ParallelViews
import Verif.Props.GrowthParallel
import Verif.Props.GrowthParallelGrid
import Verif.Model.GrowthSetup
import Verif.Props.GrowthSetup
import Verif.Model.Nested
import Verif.Spec.Nested
import Verif.Props.Nested
import Verif.Props.NestedGrowth
import Verif.Model.Simulation
import Verif.Props.Simulation
import Verif.Lemmas.AsyncBy
import Verif.Props.LifeParallel
import Verif.Props.AsyncModels
import Verif.Props.Distances
import Verif.Model.Double
import Verif.Spec.Double
import Verif.Lemmas.Double
import Verif.Lemmas.DoubleAxis
import Verif.Lemmas.DoubleGrid
import Verif.Props.Double
import Verif.Props.DoubleLife
import Verif.Lemmas.DoubleDist
import Verif.Props.DoubleDist
import Verif.Model.DoubleSetup
import Verif.Spec.DoubleSetup
import Verif.Lemmas.DoubleSum
import Verif.Props.DoubleSites
import Verif.Props.DoubleSetups
import Verif.Props.Faults
import Verif.Model.DoubleHoneycomb
import Verif.Spec.DoubleHoneycomb
import Verif.Lemmas.DoubleArith
import Verif.Lemmas.DoubleHoneycomb
import Verif.Lemmas.DoubleHoneyDist
import Verif.Lemmas.DoubleHoneyBuild
import Verif.Props.DoubleHoneycomb
import Verif.Model.DoubleAnalyzer
import Verif.Props.DoubleAnalyzer
import Verif.Model.DoubleJson
import Verif.Props.DoubleJson
import Verif.Model.DoubleAny
import Verif.Spec.DoubleAny
import Verif.Props.DoubleAny
import Verif.Model.HeapJson
import Verif.Spec.HeapJson
import Verif.Lemmas.HeapJson
import Verif.Lemmas.HeapWF
import Verif.Props.HeapJson
import Verif.Tests.Exec
import Verif.Tests.Core
import Verif.Tests.Lattice
import Verif.Model.DoubleNested
import Verif.Spec.DoubleNested
import Verif.Props.DoubleNested
import Verif.Props.Continue
import Verif.Spec.LifePlane
import Verif.Props.LifeSym
import Verif.Props.LifePlane
import Verif.Model.HeapRun
import Verif.Spec.HeapRun
import Verif.Lemmas.HeapRun
import Verif.Props.HeapRun
import Verif.Spec.Chance
import Verif.Lemmas.Chance
import Verif.Spec.RandomRun
import Verif.Lemmas.AsyncWalk
import Verif.Props.RandomRun
import Verif.Props.RandomGrowth
import Verif.Spec.RandomSetup
import Verif.Lemmas.RandomPlace
import Verif.Props.RandomSetup
import Verif.Props.RandomNuclei
import Verif.Spec.Loading
import Verif.Lemmas.Loading
import Verif.Props.Loading
import Verif.Model.RawState
import Verif.Spec.RawState
import Verif.Props.RawState
import Verif.Model.Writer
import Verif.Spec.Writer
import Verif.Props.Writer
import Verif.Spec.GrowthCount
import Verif.Props.GrowthCount
import Verif.Spec.Exact
import Verif.Props.Exact
import Verif.Props.SetupCount
import Verif.Tests.Setup
import Verif.Props.WriterAsync
import Verif.Props.WriterParallel
import Verif.Props.Dynamics
import Verif.Props.LifePeriod
import Verif.Props.StochasticGrowth
import Verif.Spec.Grains
import Verif.Props.Grains
import Verif.Spec.Renaming
import Verif.Props.Renaming
import Verif.Spec.Particles
import Verif.Props.Particles
import Verif.Lemmas.Agree
import Verif.Model.GrowthAny
import Verif.Spec.GrowthAny
import Verif.Props.GrowthAny
import Verif.Model.RandomSitesAny
import Verif.Spec.RandomSitesAny
import Verif.Props.RandomSitesAny
import Verif.Model.RawLattice
import Verif.Spec.RawLattice
import Verif.Props.RawLattice
import Verif.Spec.RawStructure
import Verif.Props.RawStructure
import Verif.Model.RawMotif
import Verif.Props.RawMotif
import Verif.Spec.Skew
import Verif.Props.Skew
import Verif.Props.ParallelCone
import Verif.Spec.AsyncCone
import Verif.Props.AsyncCone
import Verif.Spec.Symmetry
import Verif.Props.Symmetry
import Verif.Spec.RectSetup
import Verif.Props.RectSetup
import Verif.Spec.LifeVariants
import Verif.Props.LifeVariants
import Verif.Spec.LifeAsync
import Verif.Props.LifeAsync
import Verif.Spec.AsyncGrains
import Verif.Props.AsyncGrains
import Verif.Spec.LifeLinear
import Verif.Props.LifeLinear
import Verif.Spec.LifeEden
import Verif.Props.LifeEden
import Verif.Spec.LifeConfined
import Verif.Props.LifeConfined
import Verif.Spec.HoneyGrowth
import Verif.Props.HoneyGrowth
import Verif.Model.DoubleHoneyGrowth
import Verif.Spec.DoubleHoneyGrowth
import Verif.Props.DoubleHoneyGrowth
import Verif.Spec.EdenLaw
import Verif.Props.EdenLaw
import Verif.Spec.LifeNoise
import Verif.Props.LifeNoise
import Verif.Props.LifeSoup
import Verif.Model.PhaseCache
import Verif.Spec.PhaseCache
import Verif.Props.PhaseCache
import Verif.Props.LifeAnalyzer
import Verif.Spec.LifePictures
import Verif.Props.LifePictures
import Verif.Spec.GrowthAnalyzer
import Verif.Props.GrowthAnalyzer
import Verif.Spec.LifeAsyncAnalyzer
import Verif.Props.LifeAsyncAnalyzer
import Verif.Spec.GrowthPictures
import Verif.Props.GrowthPictures
import Verif.Model.Notebook
import Verif.Spec.Notebook
import Verif.Props.Notebook
import Verif.Model.ResultFile
import Verif.Spec.ResultFile
import Verif.Props.ResultFile
import Verif.Spec.FillTime
import Verif.Props.FillTime
import Verif.Spec.LifeDrift
import Verif.Props.LifeDrift
import Verif.Props.FillTimeExact
import Verif.Props.FillSpeed
import Verif.Props.GrowthAnalyzerGrid
import Verif.Spec.FillFraction
import Verif.Props.FillFraction
import Verif.Spec.LifeFraction
import Verif.Props.LifeFraction
import Verif.Props.PreRunHistory
import Verif.Spec.GrowthRect
import Verif.Props.GrowthRect
