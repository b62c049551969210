import Verif.Model.CPFit
import Verif.Model.CMTF
import Verif.Model.Parafac2Fit
import Verif.Model.Scores

/-!
# Model of the convergence information printed by the fit loops

Source: base_decomposer.py:67-69 (the option), cp.py:421-422 and parafac2.py:399-401 (the test and the line in the loop).

The loops of `Model/Decomposer.lean` leave printing out. Here they are modelled once more, with the printing, on a world that
consists of the world of the fit and the lines printed so far. A line is modelled by the iteration number and the three numbers
in it; the formatting is left out.
-/

namespace TK

noncomputable section

/-- A printed line: the iteration number and the numbers (`MSE`, `loss`, relative change). -/
abbrev OutLine := Int × List FV

/-- What the printing of a class depends on. -/
structure Printer (σ : Type) where
  /-- `print_frequency`; the constructor turns `None` into `-1` (base_decomposer.py:67-69) -/
  freq : Int
  /-- is `print_frequency > 0` tested before the remainder is computed (cp.py:421) or after it (parafac2.py:399)? -/
  signFirst : Bool
  /-- the numbers in the line -/
  line : σ → Py (List FV)

/-- A method call that can print. -/
abbrev PFit (σ : Type) := EStateM PyErr (World σ × List OutLine)

namespace PFit
variable {σ τ : Type}

/-- A method call that does not print. -/
def quiet {α : Type} (x : Fit σ α) : PFit σ α := fun p =>
  match x p.1 with
  | .ok a w => .ok a (w, p.2)
  | .error e w => .error e (w, p.2)

/-- cp.py:421 and parafac2.py:399, the test. -/
def due (p : Printer σ) (it : Int) : Py Bool :=
  if p.signFirst then
    if 0 < p.freq then Fit.divides p.freq it else .ok false
  else do
    let b ← Fit.divides p.freq it
    pure (b && decide (0 < p.freq))

/-- cp.py:421-422 and parafac2.py:399-401. -/
def printLine (p : Printer σ) : PFit σ Unit := fun q =>
  match due p q.1.it with
  | .error e => .error e q
  | .ok false => .ok () q
  | .ok true =>
    match p.line q.1.st with
    | .error e => .error e q
    | .ok l => .ok () (q.1, q.2 ++ [(q.1.it, l)])

/-- cp.py:411-423 and parafac2.py:392-403, the loop of `Fit.loop` with the printing. -/
def loop (m : Method σ τ) (p : Printer σ) : (n i : ℕ) → Option ℕ → PFit σ (Option ℕ)
  | 0, _, last => pure last
  | n + 1, i, _ => do
    let q ← get
    let b ← quiet (Fit.lift (m.stop q.1.st))
    if b then pure (some i)
    else do
      quiet (Fit.modifySt m.step)
      printLine p
      quiet (Fit.afterIteration m)
      loop m p n (i + 1) (some i)

/-- cp.py:408-427 `CP_ALS._fit`, parafac2.py:389-410 `Parafac2_ALS._fit`, cmtf.py:84-86 `CMTF_ALS._fit`, with the printing. -/
def run (m : Method σ τ) (p : Printer σ) : PFit σ Unit := do
  quiet (Fit.modifySt m.prepare)
  let q ← get
  let last ← loop m p (q.1.maxIts - q.1.it).toNat 0 none
  quiet (Fit.final m last)
  quiet (Fit.modifySt m.post)

/-- base_decomposer.py:146-164 `fit`, with the printing. -/
def fit (m : Method σ τ) (p : Printer σ) (setTarget : σ → Py σ) (initComponents : Fit σ Unit) (maxIts : Option Int) :
    PFit σ Unit := do
  quiet (Fit.initFit m setTarget initComponents maxIts)
  run m p

/-- base_decomposer.py:166-176 `continue_fit`, with the printing. -/
def continueFit (m : Method σ τ) (p : Printer σ) (maxIts : Option Int) : PFit σ Unit := do
  quiet (Fit.setMaxIts maxIts)
  run m p

end PFit

/-- base_decomposer.py:67-69, cp.py:421-422: the printing of a `CP_ALS` object. -/
def CP.printer (o : CPOpts) (freq : Option Int) : Printer CPState where
  freq := freqOption freq
  signFirst := true
  line := fun s => do
    let e ← CP.mse s
    let l ← CP.loss o s
    pure [e, .fin l, s.relChange]

/-- base_decomposer.py:67-69, cp.py:421-422: the printing of a `CMTF_ALS` object, which overrides `MSE` and `loss`
(cmtf.py:47-59). -/
def CMTF.printer (freq : Option Int) : Printer CMTFState where
  freq := freqOption freq
  signFirst := true
  line := fun s => do
    let e ← CMTF.mse s
    let l ← CMTF.sse s
    pure [e, .fin l, s.cp.relChange]

/-- base_decomposer.py:67-69, parafac2.py:399-401: the printing of a `Parafac2_ALS` object. -/
def P2.printer (o : P2Opts) (freq : Option Int) : Printer P2State where
  freq := freqOption freq
  signFirst := false
  line := fun s => do
    let e ← P2.mse s
    let l ← P2.loss o s
    pure [e, .fin l, s.relChange]

/-- parafac2.py:340 (and 73): the value of `print_frequency` if the argument is not given. -/
def P2.defaultPrintFrequency : Option Int := some 10

/-- cp.py:315 (and 74), `CP_ALS`: the value of `print_frequency` if the argument is not given. -/
def CP.defaultPrintFrequency : Option Int := none

end
end TK
