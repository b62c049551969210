import Verif.Props.CoreConsistency
import Verif.Props.Explained
import Verif.Props.MatrixFits
import Verif.Props.MoreComponents
import Verif.Props.Resume

/-!
# C165: the core consistency of fits with one component

Source: cp.py (`CP_ALS._fit`), metrics.py (`core_consistency`), decompositions.py (`KruskalTensor.core_consistency`). Core consistency
compares numbers of components. For one component it says nothing about the fit: it is 100, up to the guard of the normalisation, after every
fit, whatever the data are.
-/

namespace TK
open NDArray Fit
open EStateM (Result)

noncomputable section

theorem sumIdx_three (I J K : ℕ) (f : List ℕ → ℝ) :
    sumIdx [I, J, K] f = ∑ i ∈ Finset.range I, ∑ j ∈ Finset.range J, ∑ l ∈ Finset.range K, f [i, j, l] := by
  simp [sumIdx_cons, sumIdx_nil]

/-- One component whose residual is orthogonal to it: the best core is one, divided by the guard. -/
theorem core_of_orthogonal {E : Ext} (hE : E.QROk) {eps : ℝ} (he : 0 < eps) {X A B C : NDArray ℝ} {I J K : ℕ}
    (hX : X.shape = [I, J, K]) (hA : A.shape = [I, 1]) (hB : B.shape = [J, 1]) (hC : C.shape = [K, 1])
    (iA : IndepColumns A I 1) (iB : IndepColumns B J 1) (iC : IndepColumns C K 1)
    (hres : ∑ i ∈ Finset.range I, ∑ j ∈ Finset.range J, ∑ l ∈ Finset.range K,
      (X.get [i, j, l] - A.get [i, 0] * B.get [j, 0] * C.get [l, 0]) * (A.get [i, 0] * B.get [j, 0] * C.get [l, 0]) = 0) :
    coreConsistency E X A B C false eps = .ok (.fin (100 * (1 - (1 / guard eps [A, B, C] [I, J, K] 0 - 1) ^ 2))) := by
  obtain ⟨G, v, hG, e, hv, -⟩ := C63_value hE he hX hA hB hC iA iB iC Nat.one_pos
  rw [e, hv]
  set w := compSize [A, B, C] [I, J, K] with hw
  set ρ := guard eps [A, B, C] [I, J, K] 0 with hρ
  have h1 := colLen_pos_of_indep iA Nat.one_pos
  have h2 := colLen_pos_of_indep iB Nat.one_pos
  have h3 := colLen_pos_of_indep iC Nat.one_pos
  have hw0 : 0 < w 0 := by simp only [hw, compSize, modeProd]; positivity
  have hρ0 : 0 < ρ := by simp only [hρ, guard, modeProd]; positivity
  have hρw : ρ * ((colLen A I 0 + eps) * (colLen B J 0 + eps) * (colLen C K 0 + eps)) = w 0 := by
    simp only [hw, hρ, compSize, guard, modeProd]; field_simp
  have hprod : ∀ i j l, balanced eps w A I i 0 * balanced eps w B J j 0 * balanced eps w C K l 0 =
      ρ * (A.get [i, 0] * B.get [j, 0] * C.get [l, 0]) := by
    intro i j l
    have hc := cube_root hw0
    have n1 : colLen A I 0 + eps ≠ 0 := by positivity
    have n2 : colLen B J 0 + eps ≠ 0 := by positivity
    have n3 : colLen C K 0 + eps ≠ 0 := by positivity
    simp only [balanced]
    calc _ = A.get [i, 0] * B.get [j, 0] * C.get [l, 0] *
          (w 0 ^ ((1 : ℝ) / 3) * w 0 ^ ((1 : ℝ) / 3) * w 0 ^ ((1 : ℝ) / 3)) /
            ((colLen A I 0 + eps) * (colLen B J 0 + eps) * (colLen C K 0 + eps)) := by field_simp
      _ = _ := by
        rw [hc, ← hρw]
        field_simp
  set m : ℕ → ℕ → ℕ → ℝ := fun i j l => A.get [i, 0] * B.get [j, 0] * C.get [l, 0] with hm
  set M := ∑ i ∈ Finset.range I, ∑ j ∈ Finset.range J, ∑ l ∈ Finset.range K, m i j l ^ 2 with hM
  set R := ∑ i ∈ Finset.range I, ∑ j ∈ Finset.range J, ∑ l ∈ Finset.range K, (X.get [i, j, l] - m i j l) ^ 2 with hR
  have herr : ∀ H : ℕ → ℕ → ℕ → ℝ, tuckerErr X I J K 1 (balanced eps w A I) (balanced eps w B J) (balanced eps w C K) H =
      R + (1 - ρ * H 0 0 0) ^ 2 * M := by
    intro H
    have e1 : tuckerErr X I J K 1 (balanced eps w A I) (balanced eps w B J) (balanced eps w C K) H =
        R + (2 * (1 - ρ * H 0 0 0)) * (∑ i ∈ Finset.range I, ∑ j ∈ Finset.range J, ∑ l ∈ Finset.range K,
          (X.get [i, j, l] - m i j l) * m i j l) + (1 - ρ * H 0 0 0) ^ 2 * M := by
      rw [hR, hM]
      simp only [tuckerErr, Finset.mul_sum, ← Finset.sum_add_distrib]
      refine Finset.sum_congr rfl fun i _ => Finset.sum_congr rfl fun j _ => Finset.sum_congr rfl fun l _ => ?_
      rw [Finset.sum_range_one, Finset.sum_range_one, Finset.sum_range_one, hprod]
      simp only [hm]
      ring
    rw [e1, hres]
    ring
  have hM0 : 0 ≤ M := Finset.sum_nonneg fun _ _ => Finset.sum_nonneg fun _ _ => Finset.sum_nonneg fun _ _ => sq_nonneg _
  have hu := hG.unique (fun _ _ _ => 1 / ρ) (by
    rw [herr, herr, mul_one_div_cancel hρ0.ne', sub_self]
    have := mul_nonneg (sq_nonneg (1 - ρ * G 0 0 0)) hM0
    linarith)
  have h0 := hu 0 Nat.one_pos 0 Nat.one_pos 0 Nat.one_pos
  have hoff : offDiagonal 1 G = (1 / ρ - 1) ^ 2 := by
    rw [offDiagonal, Finset.sum_range_one, Finset.sum_range_one, Finset.sum_range_one, ← h0]
    simp
  rw [hoff]
  simp

theorem indep_one {A : NDArray ℝ} {I i : ℕ} (hi : i < I) (h : A.get [i, 0] ≠ 0) : IndepColumns A I 1 := by
  intro v hv j hj
  obtain rfl : j = 0 := by omega
  have := hv i hi
  rw [Finset.sum_range_one] at this
  exact (mul_eq_zero.1 this).resolve_left h

/-- **C165.** A fit of `CP_ALS` with one component and without penalties, whose last mode has no constraint, and which makes an iteration and
does not end with the zero model, has the core consistency `100 (1 - (1/ρ - 1)²)` with the guard `ρ = ∏ n/(n + eps)` of the lengths `n` of its
columns; the data and the start do not matter. (`C63_guard` bounds the distance of `1/ρ` from one.) -/
theorem C165_one_component {E : Ext} (hE : E.SVDOk) (hN : E.NNLSOk) (hQ : E.QROk) {c : CP.Config}
    {nonNeg orth : Option (List Bool)} {X : NDArray ℝ} {I J K : ℕ} (hX : X.shape = [I, J, K]) (hR : c.opts.rank = 1)
    (hA : CP.Admissible c.opts nonNeg orth X.shape) (hF : CP.LastFree c.opts nonNeg orth X.shape.length)
    (hlog : c.Measurable) (hfreq : freqOption c.freq ≠ 0) {arg : InitArg KruskalTensor} {t : KruskalTensor}
    (hi : CP.StartsFrom E c nonNeg orth arg X t)
    (ht : t.WF X.shape c.opts.rank) {budget : Int} {mi : Option Int} (hb : 0 < mi.getD budget)
    {loggers : List Logger} {file : Option H5File}
    (hS : Storing (CP.method E c) (CP.newObject nonNeg orth budget loggers file) []) :
    ∃ w, CP.fit E c X mi arg (CP.newObject nonNeg orth budget loggers file) = .ok () w ∧ (1 ≤ w.it →
      (∃ idx, Valid X.shape idx ∧ cpEntry (fun r => w.st.dec.weights.get [r]) w.st.dec.factorMatrices 1 idx ≠ 0) →
      ∀ {E' : Ext}, E'.QROk → ∀ {eps : ℝ}, 0 < eps →
        w.st.dec.coreConsistency E' X false eps =
          .ok (.fin (100 * (1 - (1 / guard eps w.st.dec.factorMatrices [I, J, K] 0 - 1) ^ 2)))) := by
  obtain ⟨w, h1, -, hgo⟩ := C100_fit_partial hE hN hQ hA hF hlog hfreq hi ht hb hS
  obtain ⟨-, w', -, -, h1', -, -, -, -, -, hwf, -, -, hone, -⟩ := C74_fit_completes hE hN hQ hA hlog hfreq hi ht hb hS
  rw [h1] at h1'
  obtain rfl : w = w' := by injection h1'
  refine ⟨w, h1, fun hit hne E' hE' eps he => ?_⟩
  obtain ⟨hres, -⟩ := hgo hit
  have hw := hone 0 (by omega)
  have hfs := hwf.factors
  rw [hX, hR] at hfs
  obtain ⟨A, B, C, hf, hsA, hsB, hsC⟩ : ∃ A B C, w.st.dec.factorMatrices = [A, B, C] ∧ A.shape = [I, 1] ∧ B.shape = [J, 1] ∧
      C.shape = [K, 1] := by
    revert hfs
    generalize w.st.dec.factorMatrices = fs
    intro hfs
    cases hfs with
    | cons h1 h2 => cases h2 with
      | cons h2 h3 => cases h3 with
        | cons h3 h4 => cases h4; exact ⟨_, _, _, rfl, h1, h2, h3⟩
  have hentry : ∀ i j l, cpEntry (fun r => w.st.dec.weights.get [r]) [A, B, C] 1 [i, j, l] = A.get [i, 0] * B.get [j, 0] * C.get [l, 0] := by
    intro i j l
    rw [cpEntry, Finset.sum_range_one]
    simp only [rankOne, hw]
    ring
  rw [hf] at hne hres ⊢
  obtain ⟨idx, hv, hne⟩ := hne
  rw [hX] at hv
  match idx, hv with
  | [i, j, l], ⟨a, b, d, _⟩ =>
    rw [hentry] at hne
    have nA : A.get [i, 0] ≠ 0 := fun h => hne (by rw [h]; ring)
    have nB : B.get [j, 0] ≠ 0 := fun h => hne (by rw [h]; ring)
    have nC : C.get [l, 0] ≠ 0 := fun h => hne (by rw [h]; ring)
    have h0 := hres C
    rw [hX, hR, sumIdx_three] at h0
    simp only [List.length_cons, List.length_nil, List.set_cons_succ, List.set_cons_zero, hentry] at h0
    have := core_of_orthogonal hE' he hX hsA hsB hsC (indep_one a nA) (indep_one b nB) (indep_one d nC) h0
    rw [KruskalTensor.coreConsistency, hf]
    exact this

/-- The tensor with the entries 2 and 1 in opposite corners; it needs two components. -/
def cornerTensor : NDArray ℝ := ofFn [2, 2, 2] fun idx => if idx = [0, 0, 0] then 2 else if idx = [1, 1, 1] then 1 else 0

/-- A case of the hypotheses of `C165_one_component`: `cornerTensor`, of which one component explains
only a part; ten iterations from a start of ones. -/
example {E : Ext} (hE : E.SVDOk) (hN : E.NNLSOk) (hQ : E.QROk) :
    ∃ w, CP.fit E matrixConfig cornerTensor (some 10) (.tensor ⟨1, [full [2, 1] 1, full [2, 1] 1, full [2, 1] 1], full [1] 1⟩)
        (CP.newObject none none 10 [] none) = .ok () w ∧
      w.st.dec.coreConsistency E cornerTensor false 1e-15 =
        .ok (.fin (100 * (1 - (1 / guard 1e-15 w.st.dec.factorMatrices [2, 2, 2] 0 - 1) ^ 2))) := by
  have ht : KruskalTensor.WF ⟨1, [full [2, 1] 1, full [2, 1] 1, full [2, 1] 1], full [1] 1⟩ cornerTensor.shape matrixConfig.opts.rank :=
    ⟨rfl, .cons rfl (.cons rfl (.cons rfl .nil)), rfl⟩
  have hi : matrixConfig.init.toLower = "precomputed" := by
    show "precomputed".toLower = _
    rw [String.toLower, ← String.toList_inj, String.toList_map]; decide
  have hA : CP.Admissible matrixConfig.opts none none cornerTensor.shape :=
    ⟨by decide, by simp [cornerTensor, ofFn, ofFlat], by simp [cornerTensor, ofFn, ofFlat], by simp, by simp, by simp [matrixConfig], by simp, by simp⟩
  have hS : Storing (CP.method E matrixConfig) (CP.newObject none none 10 [] none) [] :=
    ⟨fun h => absurd h (show ¬ (0 : Int) < -1 by decide), fun h => absurd h (show ¬ (0 : Int) < -1 by decide),
      fun h => absurd h (show ¬ (0 : Int) < -1 by decide)⟩
  have hlog : matrixConfig.Measurable := fun p hp => by cases hp
  have hfreq : freqOption matrixConfig.freq ≠ 0 := show freqOption none ≠ 0 by decide
  have hF : CP.LastFree matrixConfig.opts none none cornerTensor.shape.length := ⟨by simp, by simp, rfl⟩
  obtain ⟨w, h1, h2⟩ := C165_one_component hE hN hQ (X := cornerTensor) (I := 2) (J := 2) (K := 2) rfl rfl hA hF hlog hfreq
    (startsFrom_precomputed hi ht) ht (mi := some 10) (budget := 10) (loggers := []) (file := none) (by decide) hS
  obtain ⟨s0, w', k, e0, h1', -, hit, hk, -, hstop, -⟩ := C74_fit_completes hE hN hQ hA hlog hfreq
    (startsFrom_precomputed hi ht) ht (mi := some 10) (budget := 10) (loggers := []) (file := none) (by decide) hS
  rw [h1] at h1'
  obtain rfl : w = w' := by injection h1'
  have hpos : 1 ≤ w.it := by
    by_contra hlt
    have hk0 : (k : Int) < 10 := by omega
    obtain ⟨s0', e0', hG, -⟩ := initFit_good (E := E) hQ (old := CP.fresh none none) rfl hA ht
    rw [e0] at e0'
    obtain rfl : s0 = s0' := Except.ok.inj e0'
    rw [orbit_iterate hE hN hA.rank k hG] at hk
    have h3 := never_stops (o := matrixConfig.opts) le_rfl le_rfl (orbit_good hE hN hA.rank hG k).1
    rw [Except.ok.inj hk, hstop hk0] at h3
    cases h3
  refine ⟨w, h1, h2 hpos ?_ hQ (by norm_num)⟩
  obtain ⟨w', h3, h4⟩ := C160_contains hE hN hQ hA rfl hlog hfreq (startsFrom_precomputed hi ht) ht (R := 1) (v := fun _ => 1)
    (fs := [ofMat 2 1 fun i _ => if i = 0 then 1 / 2 else 0, full [2, 1] 1, full [2, 1] 1]) rfl (σ := fun _ => 0)
    (fun _ _ => Nat.one_pos) (γ := fun _ _ => 1) (fun k hk h0 i hi r hr => by
      obtain rfl : r = 0 := by omega
      have : k < 3 := hk
      interval_cases k <;> exact (one_mul _).symm)
    (mi := some 10) (budget := 10) (loggers := []) (file := none) (by decide) hS
  rw [h1] at h3
  obtain rfl : w = w' := by injection h3
  obtain ⟨e, h5, h6⟩ := h4 hpos
  obtain ⟨w', h7, -, h8⟩ := C100_fit_partial hE hN hQ hA hF hlog hfreq (startsFrom_precomputed hi ht) ht
    (mi := some 10) (budget := 10) (loggers := []) (file := none) (by decide) hS
  rw [h1] at h7
  obtain rfl : w = w' := by injection h7
  obtain ⟨-, h9, -⟩ := h8 hpos
  rw [h5] at h9
  have h9 := Except.ok.inj h9
  have hv : ∀ i < 2, ∀ j < 2, ∀ l < 2, Valid [2, 2, 2] [i, j, l] := fun i hi j hj l hl => ⟨hi, hj, hl, trivial⟩
  have e1 : sumSq cornerTensor = 5 := by
    rw [sumSq, show cornerTensor.shape = [2, 2, 2] from rfl, sumIdx_three]
    simp only [Finset.sum_range_succ, Finset.sum_range_zero, cornerTensor]
    repeat rw [get_ofFn (hv _ (by norm_num) _ (by norm_num) _ (by norm_num))]
    norm_num
  have e2 : sqErr cornerTensor (fun _ => 1) [ofMat 2 1 fun i _ => if i = 0 then 1 / 2 else 0, full [2, 1] 1, full [2, 1] 1] 1 = 4 := by
    rw [sqErr, show cornerTensor.shape = [2, 2, 2] from rfl, sumIdx_three]
    have o : ∀ i < 2, (full [2, 1] (1 : ℝ)).get [i, 0] = 1 := fun i hi => get_full (show Valid [2, 1] [i, 0] from ⟨hi, Nat.one_pos, trivial⟩)
    simp only [Finset.sum_range_succ, Finset.sum_range_zero, cornerTensor, cpEntry, rankOne]
    repeat rw [get_ofFn (hv _ (by norm_num) _ (by norm_num) _ (by norm_num))]
    simp only [o 0 (by norm_num), o 1 (by norm_num), get_ofMat (show 0 < 2 by norm_num) (show 0 < 1 by norm_num),
      get_ofMat (show 1 < 2 by norm_num) (show 0 < 1 by norm_num)]
    norm_num
  by_contra hne
  push Not at hne
  have e3 : modelSq cornerTensor.shape (fun r => w.st.dec.weights.get [r]) w.st.dec.factorMatrices matrixConfig.opts.rank = 0 := by
    rw [modelSq]
    refine (sumIdx_congr fun idx hidx => ?_).trans (sumIdx_zero _)
    rw [show matrixConfig.opts.rank = 1 from rfl, hne idx hidx]
    norm_num
  rw [e1, e3] at h9
  rw [e2] at h6
  linarith

end

end TK
