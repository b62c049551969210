import Verif.Props.FmsP2

/-!
# C31 for evolving tensors

Source: decompositions.py:473-478 (`EvolvingTensor.separate_mode_factor_match_score`). The scores are those of `A`, of the matrices `B_k` one
below the other, and of `C`, in this order.
-/

namespace TK
open NDArray

noncomputable section

/-- **C31** for evolving tensors, slices of any sizes: `separate_mode_factor_match_score` returns three scores and three assignments: the best
ones for `A` alone, for the evolving factor alone (the matrices `B_k` one below the other) and for `C` alone. Components with zero columns are
allowed. -/
theorem C31_evolving {eps : ℝ} (he : 0 < eps) {t d : EvolvingTensor} {I K R R' : ℕ} {Js : List ℕ} (hA : t.A.shape = [I, R])
    (hB : Factors t.B Js R) (hC : t.C.shape = [K, R]) (hA' : d.A.shape = [I, R']) (hB' : Factors d.B Js R')
    (hC' : d.C.shape = [K, R']) (hJ : Js ≠ []) (hR : 0 < R) (hRR : R ≤ R') (useMin : Bool) :
    ∃ U U' vA vB vC πA πB πC, IsStack U t.B Js R ∧ IsStack U' d.B Js R' ∧
      t.separateModeFms d (redName useMin) eps = .ok ([vA, vB, vC], [some πA, some πB, some πC]) ∧
      (0 ≤ vA ∧ vA ≤ 1 ∧ IsBest useMin false eps [t.A] [d.A] [I] R R' vA πA) ∧
      (0 ≤ vB ∧ vB ≤ 1 ∧ IsBest useMin false eps [U] [U'] [Js.sum] R R' vB πB) ∧
      (0 ≤ vC ∧ vC ≤ 1 ∧ IsBest useMin false eps [t.C] [d.C] [K] R R' vC πC) := by
  have hl : ∀ {B : List (NDArray ℝ)} {n}, Factors B Js n → B ≠ [] := by
    rintro B n h rfl
    cases h
    exact hJ rfl
  obtain ⟨U, e, hU⟩ := vcatAll_stack hB (hl hB)
  obtain ⟨U', e', hU'⟩ := vcatAll_stack hB' (hl hB')
  obtain ⟨vs, πs, es, l1, l2, h⟩ := C31_separate he hR hRR (a := [t.A, U, t.C]) (b := [d.A, U', d.C]) (sizes := [I, Js.sum, K])
    (.cons hA (.cons hU.shape (.cons hC .nil))) (.cons hA' (.cons hU'.shape (.cons hC' .nil))) (by simp) useMin
  obtain ⟨vA, πA, a1, a2, a3⟩ := h 0 t.A d.A I rfl rfl rfl
  obtain ⟨vB, πB, b1, b2, b3⟩ := h 1 U U' Js.sum rfl rfl rfl
  obtain ⟨vC, πC, c1, c2, c3⟩ := h 2 t.C d.C K rfl rfl rfl
  have hv : vs = [vA, vB, vC] := by
    match vs, l1 with
    | [x, y, z], _ => simp_all
  have hp : πs = [some πA, some πB, some πC] := by
    match πs, l2 with
    | [x, y, z], _ => simp_all
  refine ⟨U, U', vA, vB, vC, πA, πB, πC, hU, hU', ?_, a3, b3, c3⟩
  rw [EvolvingTensor.separateModeFms, EvolvingTensor.BUnfolded, e, bind_ok, EvolvingTensor.BUnfolded, e', bind_ok, es, hv, hp]

/-- The hypotheses are met by tensors with slices of different sizes. -/
example : ∃ t d : EvolvingTensor, t.A.shape = [2, 1] ∧ Factors t.B [2, 3] 1 ∧ t.C.shape = [2, 1] ∧ d.A.shape = [2, 2] ∧
    Factors d.B [2, 3] 2 ∧ d.C.shape = [2, 2] :=
  ⟨⟨1, full [2, 1] 1, [full [2, 1] 1, full [3, 1] 2], full [2, 1] 1, true, true, [(2, 1), (3, 1)], 1⟩,
   ⟨2, full [2, 2] 1, [full [2, 2] 1, full [3, 2] 2], full [2, 2] 1, true, true, [(2, 2), (3, 2)], 1⟩,
    rfl, .cons rfl (.cons rfl .nil), rfl, rfl, .cons rfl (.cons rfl .nil), rfl⟩

end
end TK
