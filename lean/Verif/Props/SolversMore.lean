import Verif.Props.Solvers

/-!
# C13: right-hand sides without rows

Source: base.py:16-27 (`nnls` is called once for every row, so that nothing is compared when there is none).
-/

namespace TK
open NDArray

noncomputable section

/-- C13: for a right-hand side without rows nothing is solved and nothing is rejected, whatever its number of columns. -/
theorem C13_no_rows (E : Ext) {A B : NDArray ℝ} {m n q : ℕ} (hA : A.shape = [m, n]) (hB : B.shape = [0, q]) :
    ∃ X, nonNegativeRightsolve E A B = .ok X ∧ X.shape = [0, m] := by
  refine ⟨ofMat 0 m fun i j => (E.nnls A.T (rowVec B i)).get [j], ?_, rfl⟩
  simp [nonNegativeRightsolve, hB, dims2_ok hB, dims2_ok hA, bind_ok, pure, Except.pure]

/-- C13: with matrices the call is rejected exactly when there is a row and the numbers of columns differ. -/
theorem C13_rejects_iff (E : Ext) {A B : NDArray ℝ} {m n p q : ℕ} (hA : A.shape = [m, n]) (hB : B.shape = [p, q]) :
    (∃ e, nonNegativeRightsolve E A B = .error e) ↔ 0 < p ∧ q ≠ n := by
  constructor
  · rintro ⟨e, he⟩
    by_contra h
    simp [nonNegativeRightsolve, hB, dims2_ok hB, dims2_ok hA, bind_ok, pure, Except.pure, h] at he
  · rintro ⟨hp, h⟩
    exact ⟨_, C13_bad_size E A B hA hB hp h⟩

/-- A `2 × 3` system with a right-hand side of size `0 × 5`, and one of size `1 × 5`. -/
example (E : Ext) : (∃ X, nonNegativeRightsolve E (full [2, 3] 1) (full [0, 5] 1) = .ok X ∧ X.shape = [0, 2]) ∧
    ∃ e, nonNegativeRightsolve E (full [2, 3] 1) (full [1, 5] 1) = .error e :=
  ⟨C13_no_rows E rfl rfl, (C13_rejects_iff E rfl rfl).2 ⟨by norm_num, by norm_num⟩⟩

end

end TK
