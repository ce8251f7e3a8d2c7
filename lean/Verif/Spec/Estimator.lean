import Verif.Model.Estimator
/-! What it means that two estimators have the same fitted attributes. -/
namespace Verif.Estimator
variable {K G S RP : Type}

/-- All fitted attributes of two objects agree (what an attribute is when it does not exist:
    absent). -/
structure SameAttrs (o o' : Obj K G S RP) : Prop where
  regParams : o.regParams = o'.regParams
  supports : o.supports = o'.supports
  estimates : o.estimates = o'.estimates
  scores : o.scores = o'.scores
  rpMax : o.rpMax = o'.rpMax
  coef : o.coef = o'.coef
  intercept : o.intercept = o'.intercept

end Verif.Estimator
