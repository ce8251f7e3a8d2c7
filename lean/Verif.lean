import Verif.Props.Thresholds
import Verif.Props.Intersection
import Verif.Props.MpiUtils
import Verif.Props.Tasks
import Verif.Props.Fit
import Verif.Props.FitResult
import Verif.Props.Isolation
import Verif.Props.Utils
import Verif.Props.Scores
import Verif.Props.Scaling
import Verif.Props.Grid
import Verif.Props.Estimator
import Verif.Props.Poisson
import Verif.Props.Logistic
import Verif.Props.LogisticL1
import Verif.Props.PoissonLbfgs
import Verif.Props.Cur
import Verif.Props.Nmf
import Verif.Props.Datasets
import Verif.Props.Owlqn
import Verif.Props.LineSearch
import Verif.Props.MoreThuente
import Verif.Props.LbfgsPy
import Verif.Props.LbfgsLoop
import Verif.Props.LbfgsDir
import Verif.Props.Ctors
import Verif.Props.LbfgsStop
import Verif.Props.InterceptFit
import Verif.Model.Labels
import Verif.Spec.Labels
import Verif.Lemmas.Labels
import Verif.Props.Labels
import Verif.Spec.Weights
import Verif.Lemmas.Weights
import Verif.Props.Weights
import Verif.Model.Classes
import Verif.Spec.Classes
import Verif.Lemmas.Classes
import Verif.Props.Classes
import Verif.Spec.Supports
import Verif.Lemmas.Supports
import Verif.Props.Supports
import Verif.Spec.Searches
import Verif.Lemmas.Searches
import Verif.Props.Searches
import Verif.Model.Transform
import Verif.Props.Transform
import Verif.Lemmas.Quadratic
import Verif.Props.Quadratic
import Verif.Model.NoFeatures
import Verif.Props.NoFeatures
import Verif.Spec.Converge
import Verif.Lemmas.Converge
import Verif.Props.Converge
import Verif.Lemmas.QuadConverge
import Verif.Props.QuadConverge
import Verif.Spec.Symmetry
import Verif.Lemmas.Symmetry
import Verif.Props.Symmetry
import Verif.Spec.FeatureOrder
import Verif.Lemmas.FeatureOrder
import Verif.Props.FeatureOrder
import Verif.Spec.FitOrder
import Verif.Lemmas.FitOrder
import Verif.Props.FitOrder
import Verif.Model.MaskedFit
import Verif.Spec.MaskedFit
import Verif.Lemmas.MaskedFit
import Verif.Props.MaskedFit
import Verif.Model.FailedFit
import Verif.Spec.FailedFit
import Verif.Lemmas.FailedFit
import Verif.Props.FailedFit
import Verif.Model.HeldOut
import Verif.Spec.HeldOut
import Verif.Lemmas.HeldOut
import Verif.Props.HeldOut
import Verif.Model.LbfgsObj
import Verif.Spec.LbfgsObj
import Verif.Lemmas.LbfgsObj
import Verif.Props.LbfgsObj
import Verif.Model.Synthetic
import Verif.Spec.Synthetic
import Verif.Lemmas.Synthetic
import Verif.Props.Synthetic
import Verif.Model.Recovery
import Verif.Spec.Recovery
import Verif.Lemmas.Recovery
import Verif.Props.Recovery
import Verif.Model.LogisticMin
import Verif.Spec.LogisticMin
import Verif.Lemmas.LogisticMin
import Verif.Props.LogisticMin
import Verif.Props.PoissonMin
import Verif.Props.InfoChoice
import Verif.Spec.CurExpect
import Verif.Lemmas.CurExpect
import Verif.Props.CurExpect
import Verif.Lemmas.WolfeConverge
import Verif.Lemmas.WolfeFmin
import Verif.Props.WolfeConverge
import Verif.Spec.OwlqnConverge
import Verif.Lemmas.OwlqnConverge
import Verif.Lemmas.OwlqnStall
import Verif.Lemmas.OwlqnRange
import Verif.Props.OwlqnConverge
import Verif.Lemmas.ThresholdOrder
import Verif.Props.ThresholdOrder
import Verif.Spec.PoissonMode
import Verif.Lemmas.PoissonMode
import Verif.Props.PoissonMode
import Verif.Lemmas.PoissonDescent
import Verif.Props.PoissonDescent
import Verif.Model.PoissonWeights
import Verif.Lemmas.PoissonWeights
import Verif.Props.PoissonWeights
import Verif.Spec.Sse
import Verif.Model.Sse
import Verif.Lemmas.Sse
import Verif.Props.Sse
import Verif.Spec.PoissonFloat
import Verif.Model.PoissonFloat
import Verif.Lemmas.PoissonFloat
import Verif.Props.PoissonFloat
import Verif.Spec.LbfgsNan
import Verif.Lemmas.LbfgsNan
import Verif.Props.LbfgsNan
import Verif.Spec.PoissonFloatArith
import Verif.Props.PoissonFloatArith
import Verif.Spec.SplitSize
import Verif.Model.SplitSize
import Verif.Lemmas.SplitSize
import Verif.Props.SplitSize
import Verif.Spec.MakeClassification
import Verif.Model.MakeClassification
import Verif.Lemmas.MakeClassification
import Verif.Props.MakeClassification
import Verif.Spec.Proportion
import Verif.Model.Proportion
import Verif.Lemmas.Proportion
import Verif.Props.Proportion
import Verif.Spec.ProportionCur
import Verif.Model.ProportionCur
import Verif.Lemmas.ProportionCur
import Verif.Props.ProportionCur
import Verif.Spec.Proba
import Verif.Model.Proba
import Verif.Lemmas.Proba
import Verif.Props.Proba
import Verif.Spec.Ties
import Verif.Model.Ties
import Verif.Lemmas.Ties
import Verif.Props.Ties
import Verif.Spec.Identify
import Verif.Model.Identify
import Verif.Lemmas.Identify
import Verif.Props.Identify
import Verif.Spec.MoreCandidates
import Verif.Lemmas.MoreCandidates
import Verif.Props.MoreCandidates
import Verif.Props.IdentifyPoisson
