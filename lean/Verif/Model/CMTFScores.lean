import Verif.Model.CMTF
import Verif.Model.Scores

/-! # Model of the scores that `CMTF_ALS` inherits (`src/tenkit/decomposition/base_decomposer.py`) -/

namespace TK

noncomputable section

/-- base_decomposer.py:94-97 `explained_variance` of a `CMTF_ALS` object: `SSE` is the overridden one of cmtf.py:40-44, which includes the
errors of the coupled matrices, and `X_norm` is the norm of the tensor alone. -/
def CMTF.explainedVariance (s : CMTFState) : Py FV := do
  let e ← CMTF.sse s
  pure (FV.div e (s.cp.XNorm ^ 2)).oneSub

end

end TK
