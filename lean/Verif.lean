import Verif.Lemmas.AipwLimit
import Verif.Lemmas.AipwLimit2
import Verif.Lemmas.AipwMean
import Verif.Lemmas.AipwStream
import Verif.Lemmas.AipwTest
import Verif.Lemmas.Arms
import Verif.Lemmas.Arms2
import Verif.Lemmas.Arms3
import Verif.Lemmas.Arms4
import Verif.Lemmas.Arms5
import Verif.Lemmas.Arms6
import Verif.Lemmas.Arms7
import Verif.Lemmas.Arms8
import Verif.Lemmas.Arms9
import Verif.Lemmas.ArmsTest
import Verif.Lemmas.ArmsTest2
import Verif.Lemmas.ArmsTest3
import Verif.Lemmas.BackDoorUnit
import Verif.Lemmas.BackDoorUnit2
import Verif.Lemmas.Bandits
import Verif.Lemmas.Bandits2
import Verif.Lemmas.Bandits3
import Verif.Lemmas.Bandits4
import Verif.Lemmas.Bandits5
import Verif.Lemmas.Bandits6
import Verif.Lemmas.Bandits7
import Verif.Lemmas.Bandits8
import Verif.Lemmas.BanditsTest
import Verif.Lemmas.BanditsTest2
import Verif.Lemmas.ChiSquare
import Verif.Lemmas.ChiSquare2
import Verif.Lemmas.Consistency
import Verif.Lemmas.Coverage
import Verif.Lemmas.Coverage2
import Verif.Lemmas.Coverage3
import Verif.Lemmas.Coverage4
import Verif.Lemmas.Coverage5
import Verif.Lemmas.CoverageDemo
import Verif.Lemmas.CoverageDemo2
import Verif.Lemmas.Cpds
import Verif.Lemmas.Data
import Verif.Lemmas.Data2
import Verif.Lemmas.DataItem
import Verif.Lemmas.DataTest
import Verif.Lemmas.Elimination
import Verif.Lemmas.EndToEnd
import Verif.Lemmas.ExampleScm
import Verif.Lemmas.Experiments
import Verif.Lemmas.Fl
import Verif.Lemmas.FrontDoor
import Verif.Lemmas.FrontDoor2
import Verif.Lemmas.FrontDoorFit
import Verif.Lemmas.FrontDoorLimit
import Verif.Lemmas.FrontDoorLimit2
import Verif.Lemmas.FrontDoorPure
import Verif.Lemmas.FrontDoorTest
import Verif.Lemmas.FrontUnit
import Verif.Lemmas.FrontUnit2
import Verif.Lemmas.FrontUnit3
import Verif.Lemmas.FrontVariance
import Verif.Lemmas.FrontVariance2
import Verif.Lemmas.Logistic
import Verif.Lemmas.MEstimation
import Verif.Lemmas.Narrow
import Verif.Lemmas.Notebook
import Verif.Lemmas.Numbers
import Verif.Lemmas.Paper
import Verif.Lemmas.Paper2
import Verif.Lemmas.PaperData
import Verif.Lemmas.PaperDo
import Verif.Lemmas.PaperRun
import Verif.Lemmas.PaperSafe
import Verif.Lemmas.Parameters
import Verif.Lemmas.Parameters2
import Verif.Lemmas.Plotting
import Verif.Lemmas.PopLogistic
import Verif.Lemmas.PopLogistic2
import Verif.Lemmas.RealLib
import Verif.Lemmas.Rerun
import Verif.Lemmas.Rerun2
import Verif.Lemmas.RidgeIntercept
import Verif.Lemmas.RunInv
import Verif.Lemmas.SCM
import Verif.Lemmas.SCM2
import Verif.Lemmas.Safe
import Verif.Lemmas.SafeArm
import Verif.Lemmas.SafeData
import Verif.Lemmas.Section5
import Verif.Lemmas.Section51
import Verif.Lemmas.Section52
import Verif.Lemmas.Simulate
import Verif.Lemmas.SklearnExists
import Verif.Lemmas.Stream
import Verif.Lemmas.Stream2
import Verif.Lemmas.Stream3
import Verif.Lemmas.Stream4
import Verif.Lemmas.Stream5
import Verif.Lemmas.Stream6
import Verif.Lemmas.TabStr
import Verif.Lemmas.Tabular
import Verif.Lemmas.Tabular2
import Verif.Lemmas.Termination
import Verif.Lemmas.Termination2
import Verif.Lemmas.WeakLaw
import Verif.Lemmas.Widths
import Verif.Model.Arms
import Verif.Model.ArmsTest
import Verif.Model.BanditArms
import Verif.Model.Bandits
import Verif.Model.BanditsTest
import Verif.Model.Cpds
import Verif.Model.Data
import Verif.Model.DataItem
import Verif.Model.DataTest
import Verif.Model.DataTest2
import Verif.Model.ExampleScm
import Verif.Model.ExampleScm2
import Verif.Model.Experiments
import Verif.Model.Fl
import Verif.Model.LinearGen
import Verif.Model.Nonlinear
import Verif.Model.Paper
import Verif.Model.PaperBandits
import Verif.Model.PaperCpds
import Verif.Model.Parameters
import Verif.Model.ParametersReal
import Verif.Model.ParametersTest
import Verif.Model.Plotting
import Verif.Model.Py
import Verif.Model.RealLib
import Verif.Model.SCM
import Verif.Model.Section5
import Verif.Model.Tabular
import Verif.Model.TestUtils
import Verif.Props.AipwConsistent
import Verif.Props.Arms
import Verif.Props.ArmsTest
import Verif.Props.ArmsTest2
import Verif.Props.ArmsTest3
import Verif.Props.BackDoorBandit
import Verif.Props.Bandits
import Verif.Props.Bandits2
import Verif.Props.Bandits3
import Verif.Props.BanditsTest
import Verif.Props.Checks
import Verif.Props.ChiSquare
import Verif.Props.Consistency
import Verif.Props.Coverage
import Verif.Props.Cpds
import Verif.Props.Data
import Verif.Props.DataItem
import Verif.Props.DataTest
import Verif.Props.DataTest2
import Verif.Props.EndToEnd
import Verif.Props.EndToEnd2
import Verif.Props.EndToEnd3
import Verif.Props.EndToEnd4
import Verif.Props.ExampleScm
import Verif.Props.ExampleScm2
import Verif.Props.ExampleScm3
import Verif.Props.ExampleScm4
import Verif.Props.ExampleScm5
import Verif.Props.ExampleScm6
import Verif.Props.Experiments
import Verif.Props.Experiments2
import Verif.Props.Experiments3
import Verif.Props.FrontDoor
import Verif.Props.FrontDoor2
import Verif.Props.FrontDoorConsistent
import Verif.Props.LinReg
import Verif.Props.LinRegConsistent
import Verif.Props.LinearGen
import Verif.Props.Narrow
import Verif.Props.Nonlinear
import Verif.Props.Pac
import Verif.Props.Paper
import Verif.Props.Paper2
import Verif.Props.PaperCpds
import Verif.Props.PaperEffect
import Verif.Props.PaperSafe
import Verif.Props.Parameters
import Verif.Props.Parameters2
import Verif.Props.ParametersTest
import Verif.Props.Plotting
import Verif.Props.Repeated
import Verif.Props.Rerun
import Verif.Props.SCM
import Verif.Props.Safe
import Verif.Props.SafeArm
import Verif.Props.SafeData
import Verif.Props.Section5
import Verif.Props.Section52
import Verif.Props.Section5Draws
import Verif.Props.Section5Seed
import Verif.Props.Surface
import Verif.Props.TabStr
import Verif.Props.Tabular
import Verif.Props.Termination
import Verif.Props.Termination2
import Verif.Props.Termination3
import Verif.Props.Termination4
import Verif.Props.TestUtils
import Verif.Props.Ties
import Verif.Props.Truth
import Verif.Props.Widths
import Verif.Props.ZeroCost
import Verif.Props.ZeroUnits
import Verif.Spec.Arms
import Verif.Spec.ArmsReal
import Verif.Spec.ArmsTest
import Verif.Spec.ArmsTest2
import Verif.Spec.BackDoorBandit
import Verif.Spec.Bandits
import Verif.Spec.BanditsTest
import Verif.Spec.Coverage
import Verif.Spec.Cpds
import Verif.Spec.Data
import Verif.Spec.DataItem
import Verif.Spec.DataTest
import Verif.Spec.Elimination
import Verif.Spec.EndToEnd
import Verif.Spec.ExampleScm
import Verif.Spec.Experiments
import Verif.Spec.Follows
import Verif.Spec.FrontDoorLimit
import Verif.Spec.LinearGen
import Verif.Spec.Narrow
import Verif.Spec.Numbers
import Verif.Spec.Pac
import Verif.Spec.Paper
import Verif.Spec.PaperCpds
import Verif.Spec.PaperSafe
import Verif.Spec.Parameters
import Verif.Spec.ParametersTest
import Verif.Spec.Plotting
import Verif.Spec.PopLogistic
import Verif.Spec.Regression
import Verif.Spec.Rerun
import Verif.Spec.SCM
import Verif.Spec.Safe
import Verif.Spec.SafeArm
import Verif.Spec.Section5
import Verif.Spec.Sklearn
import Verif.Spec.Stream
import Verif.Spec.Tabular
import Verif.Spec.Termination
import Verif.Spec.TestUtils
import Verif.Spec.Widths
