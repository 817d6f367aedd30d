import Verif.Model.Machine
import Verif.Model.MultiArrayIter
import Verif.Spec.Box
import Verif.Lemmas.Machine
import Verif.Lemmas.MixedRadix
import Verif.Lemmas.MultiArrayIter
import Verif.Props.MultiArrayIter
import Verif.Model.CubeDecomp
import Verif.Model.Exact
import Verif.Spec.Decomp
import Verif.Lemmas.CubeDecomp
import Verif.Lemmas.CubeDecompInv
import Verif.Lemmas.CubeDecompGeom
import Verif.Props.CubeDecomp
import Verif.Model.StdMap
import Verif.Model.CmdLine
import Verif.Spec.CmdLine
import Verif.Lemmas.StdMap
import Verif.Lemmas.CmdLine
import Verif.Props.CmdLine
import Verif.Model.Upwind
import Verif.Model.UpwindMain
import Verif.Model.ExactReal
import Verif.Spec.Upwind
import Verif.Lemmas.Upwind
import Verif.Lemmas.UpwindExact
import Verif.Props.Upwind
import Verif.Spec.UpwindWide
import Verif.Lemmas.UpwindWide
import Verif.Props.UpwindWide
import Verif.Model.Schedule
import Verif.Lemmas.Schedule
import Verif.Lemmas.ScheduleEnd
import Verif.Model.UpwindPar
import Verif.Lemmas.UpwindPar
import Verif.Props.UpwindPar
import Verif.Model.UpwindAcc
import Verif.Lemmas.UpwindAcc
import Verif.Lemmas.ScheduleOne
import Verif.Lemmas.UpwindTeams
import Verif.Props.UpwindAcc
import Verif.Spec.Filter
import Verif.Model.Filter
import Verif.Lemmas.FilterBase
import Verif.Lemmas.FilterState
import Verif.Lemmas.FilterData
import Verif.Lemmas.FilterStep
import Verif.Lemmas.FilterApply
import Verif.Lemmas.FilterWorld
import Verif.Lemmas.FilterSetup
import Verif.Props.Filter
import Verif.Model.FilterCalls
import Verif.Lemmas.FilterCalls
import Verif.Lemmas.FilterSum
import Verif.Lemmas.FilterTrace
import Verif.Props.FilterCalls
import Verif.Lemmas.FilterLeak
import Verif.Props.FilterLeak
import Verif.Lemmas.FilterSave
import Verif.Props.FilterSave
import Verif.Model.FilterRun
import Verif.Lemmas.FilterRun
import Verif.Lemmas.FilterRunInv
import Verif.Lemmas.FilterRunStep
import Verif.Lemmas.FilterRunEnd
import Verif.Lemmas.FilterRunLock
import Verif.Props.FilterRun
import Verif.Spec.Traffic
import Verif.Model.FilterTraffic
import Verif.Lemmas.FilterTraffic
import Verif.Props.FilterTraffic
import Verif.Model.Drivers
import Verif.Lemmas.Drivers
import Verif.Lemmas.DriversRun
import Verif.Props.Drivers
import Verif.Spec.Vtk
import Verif.Model.Vtk
import Verif.Lemmas.Vtk
import Verif.Props.Vtk
import Verif.Spec.Mains
import Verif.Model.Mains
import Verif.Lemmas.Mains
import Verif.Lemmas.MainsRun
import Verif.Props.Mains
import Verif.Lemmas.MainsMpi
import Verif.Props.MainsMpi
import Verif.Props.Matmult
import Verif.Props.UpwindFortran
import Verif.Props.UpwindOther
import Verif.Spec.Rounding
import Verif.Lemmas.Rounding
import Verif.Lemmas.Dbl
import Verif.Props.Rounding
import Verif.Model.VtkOther
import Verif.Lemmas.VtkOther
import Verif.Props.VtkOther
import Verif.Spec.MainsOther
import Verif.Model.MainsOther
import Verif.Lemmas.MainsOther
import Verif.Props.MainsOther
import Verif.Spec.UpwindMpiPy
import Verif.Model.UpwindMpiPy
import Verif.Lemmas.UpwindMpiPy
import Verif.Lemmas.UpwindMpiPyAny
import Verif.Props.UpwindMpiPy
import Verif.Props.UpwindMpiPyAny
import Verif.Lemmas.FilterWrap
import Verif.Props.FilterWrap
import Verif.Lemmas.FilterProcs
import Verif.Props.FilterProcs
import Verif.Lemmas.FilterShapes
import Verif.Lemmas.FilterShapesNever
import Verif.Props.FilterShapes
import Verif.Lemmas.FilterOne
import Verif.Props.FilterOne
import Verif.Spec.FilterAny
import Verif.Lemmas.FilterAny
import Verif.Lemmas.FilterAnyAxes
import Verif.Lemmas.FilterAnyWorks
import Verif.Lemmas.FilterAnyWrap
import Verif.Props.FilterAny
import Verif.Lemmas.FilterWide
import Verif.Props.FilterWide
import Verif.Lemmas.DriversWrap
import Verif.Props.DriversWrap
import Verif.Lemmas.DriversProcs
import Verif.Props.DriversProcs
import Verif.Model.UpwindCython
import Verif.Lemmas.UpwindCython
import Verif.Props.UpwindCython
import Verif.Spec.Print
import Verif.Model.FilterPrint
import Verif.Lemmas.FilterPrint
import Verif.Props.FilterPrint
import Verif.Spec.Stencil2d
import Verif.Model.Stencil2d
import Verif.Lemmas.Stencil2d
import Verif.Props.Stencil2d
import Verif.Model.UpwindPrint
import Verif.Lemmas.UpwindPrint
import Verif.Props.UpwindPrint
import Verif.Spec.TestDrivers
import Verif.Model.TestDrivers
import Verif.Lemmas.TestDrivers
import Verif.Props.TestDrivers
import Verif.Spec.FilterRounding
import Verif.Lemmas.FilterRounding
import Verif.Props.FilterRounding
import Verif.Model.Ieee
import Verif.Lemmas.Ieee
import Verif.Props.Ieee
import Verif.Lemmas.IeeeFilter
import Verif.Lemmas.CubeDecompDouble
import Verif.Props.IeeeFilter
import Verif.Props.CubeDecompDouble
import Verif.Lemmas.CubeDecompFirst
import Verif.Spec.Neighbour
import Verif.Lemmas.NeighborRank
import Verif.Props.CubeDecompDirs
import Verif.Lemmas.Banner
import Verif.Props.Banner
import Verif.Lemmas.TeamsStale
import Verif.Props.Teams
import Verif.Model.ExactSin
import Verif.Spec.Advection
import Verif.Lemmas.UpwindConverge
import Verif.Props.UpwindConverge
import Verif.Lemmas.UpwindStable
import Verif.Props.UpwindStable
import Verif.Lemmas.LaplaceExact
import Verif.Props.LaplaceExact
import Verif.Lemmas.UpwindLimit
import Verif.Props.UpwindLimit
import Verif.Lemmas.FilterAlgebra
import Verif.Props.FilterAlgebra
import Verif.Model.CTest
import Verif.Model.FormatG
import Verif.Spec.CTest
import Verif.Lemmas.CTest
import Verif.Props.CTest
import Verif.Spec.Decimal
import Verif.Lemmas.FormatG
import Verif.Props.FormatG
import Verif.Props.AccDouble
import Verif.Spec.AnyOrder
import Verif.Props.OtherDouble
import Verif.Props.CythonDouble
import Verif.Lemmas.BoxRounding
import Verif.Props.MpiPyDouble
import Verif.Spec.GridSum
import Verif.Lemmas.GridSum
import Verif.Props.MainsMpiAny
import Verif.Props.MainsMpiDouble
import Verif.Lemmas.CTestMerge
import Verif.Props.CTestMpi
import Verif.Lemmas.DblInt
import Verif.Model.MatmultMain
import Verif.Props.MatmultMain
import Verif.Spec.Draws
import Verif.Lemmas.UpwindClosed
import Verif.Props.UpwindClosed
import Verif.Spec.Symmetry
import Verif.Lemmas.UpwindSymmetry
import Verif.Props.UpwindSymmetry
import Verif.Props.UpwindVariation
import Verif.Props.UpwindConvex
import Verif.Lemmas.LapDouble
import Verif.Props.LaplacianDouble
import Verif.Lemmas.LapClosedDouble
import Verif.Props.LaplacianClosedDouble
import Verif.Lemmas.UpwindFieldDouble
import Verif.Props.UpwindFieldDouble
import Verif.Spec.CubeField
import Verif.Lemmas.CubeField
import Verif.Props.UpwindAll
import Verif.Props.UpwindMpiFile
