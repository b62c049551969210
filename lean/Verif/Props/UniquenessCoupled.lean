import Verif.Props.Uniqueness
import Verif.Props.CMTF
import Verif.Props.Signs

/-!
# C143: exact coupled models are the same
-/

namespace TK
open NDArray

noncomputable section

theorem matErr_eq_zero {Y U V : NDArray ℝ} {R : ℕ} (h : matErr Y U V R = 0) {a b : ℕ} (ha : a < Y.shape.getD 0 0)
    (hb : b < Y.shape.getD 1 0) : Y.get [a, b] = ∑ r ∈ Finset.range R, U.get [a, r] * V.get [b, r] := by
  rw [matErr, Finset.sum_eq_zero_iff_of_nonneg fun _ _ => Finset.sum_nonneg fun _ _ => sq_nonneg _] at h
  have h1 := h a (Finset.mem_range.2 ha)
  rw [Finset.sum_eq_zero_iff_of_nonneg fun _ _ => sq_nonneg _] at h1
  have := pow_eq_zero_iff two_ne_zero |>.1 (h1 b (Finset.mem_range.2 hb))
  linarith

/-- A reported error of zero: the tensor and all coupled matrices are fitted exactly. -/
theorem cmtf_exact {s : CMTFState} {R : ℕ} {ms qs : List ℕ} (h : s.Sized R ms qs) (h0 : CMTF.sse s = .ok 0) :
    (∀ idx, Valid s.cp.X.shape idx →
      s.cp.X.get idx = cpEntry (fun r => s.cp.dec.weights.get [r]) s.cp.dec.factorMatrices R idx) ∧
    ∀ i < ms.length, matErr (s.Ys.getD i noArr) (s.cp.dec.factorMatrices.getD (ms.getD i 0) noArr) (s.V.getD i noArr) R = 0 := by
  rw [cmtf_sse_ok h] at h0
  have h0 := Except.ok.inj h0
  have n1 : 0 ≤ s.cp.trueSSE R := sumIdx_nonneg fun _ _ => sq_nonneg _
  have n2 : 0 ≤ coupledErr s.cp.dec.factorMatrices s.Ys s.V ms R := Finset.sum_nonneg fun _ _ => matErr_nonneg _ _ _ _
  rw [CMTFState.trueLoss] at h0
  have z1 : s.cp.trueSSE R = 0 := by linarith
  have z2 : coupledErr s.cp.dec.factorMatrices s.Ys s.V ms R = 0 := by linarith
  refine ⟨fun idx hv => ?_, fun i hi => ?_⟩
  · have := sumSq_eq_zero_iff.1 z1 idx hv
    linarith
  · exact (Finset.sum_eq_zero_iff_of_nonneg fun _ _ => matErr_nonneg _ _ _ _).1 z2 i (Finset.mem_range.2 hi)

theorem forall₂_zip_get {f g : List (NDArray ℝ)} {sizes : List ℕ} {P : NDArray ℝ × NDArray ℝ → ℕ → Prop}
    (h : List.Forall₂ P (f.zip g) sizes) (hf : f.length = sizes.length) (hg : g.length = sizes.length) {m : ℕ} (hm : m < sizes.length) :
    P (f.getD m noArr, g.getD m noArr) (sizes.getD m 0) := by
  have := (List.forall₂_iff_get.1 h).2 m (by rw [List.length_zip, hf, hg, min_self]; exact hm) hm
  rw [getD_of_lt (by omega), getD_of_lt (by omega), getD_of_lt hm]
  simpa using this

/-- **C143.** Two coupled fits of the same data that both report the error zero found the same components, if the model of the
tensor is identifiable in one of them: the components of the tensor agree up to their order, and, with the same order, those of
every coupled matrix whose mode has linearly independent columns. -/
theorem C143_coupled {s s' : CMTFState} {R : ℕ} {ms qs : List ℕ} (hs : s.Sized R ms qs) (hs' : s'.Sized R ms qs)
    (hX : s'.cp.X = s.cp.X) (hY : s'.Ys = s.Ys) (h0 : CMTF.sse s = .ok 0) (h0' : CMTF.sse s' = .ok 0)
    (hw : ∀ r < R, s.cp.dec.weights.get [r] ≠ 0) (hI : Identifiable s.cp.dec.factorMatrices s.cp.X.shape R) :
    ∃ π, IsAssignment π R R ∧ ∀ r < R,
      (∀ idx, Valid s.cp.X.shape idx →
        s'.cp.dec.weights.get [π.getD r 0] * rankOne s'.cp.dec.factorMatrices idx (π.getD r 0)
          = s.cp.dec.weights.get [r] * rankOne s.cp.dec.factorMatrices idx r) ∧
      ∀ i < ms.length,
        IndepColumns (s.cp.dec.factorMatrices.getD (ms.getD i 0) noArr) (s.cp.X.shape.getD (ms.getD i 0) 0) R →
        ∀ a < s.cp.X.shape.getD (ms.getD i 0) 0, ∀ b < qs.getD i 0,
          (s'.cp.dec.factorMatrices.getD (ms.getD i 0) noArr).get [a, π.getD r 0] * (s'.V.getD i noArr).get [b, π.getD r 0]
            = (s.cp.dec.factorMatrices.getD (ms.getD i 0) noArr).get [a, r] * (s.V.getD i noArr).get [b, r] := by
  obtain ⟨z, zc⟩ := cmtf_exact hs h0
  obtain ⟨z', zc'⟩ := cmtf_exact hs' h0'
  have wf' : s'.cp.dec.WF s.cp.X.shape R := by rw [← hX]; exact hs'.cp.wf
  rw [hX] at z'
  obtain ⟨π, hπ, hag⟩ := components_agree hs.cp.wf wf' hw hI fun idx hv => by rw [← z idx hv, ← z' idx hv]
  refine ⟨π, hπ, fun r hr => ⟨(hag r hr).1, fun i hi hind a ha b hb => ?_⟩⟩
  set m := ms.getD i 0 with hm
  set n := s.cp.X.shape.getD m 0 with hn
  set U := s.cp.dec.factorMatrices.getD m noArr with hU
  set U' := s'.cp.dec.factorMatrices.getD m noArr with hU'
  set V := s.V.getD i noArr with hV
  set V' := s'.V.getD i noArr with hV'
  have hml : m < s.cp.X.shape.length := (hs.mode hi).1
  have hcol : ∀ r < R, ColumnsAgree U U' n r (π.getD r 0) := fun r hr =>
    forall₂_zip_get (hag r hr).2.1 hs.cp.wf.factors.length_eq wf'.factors.length_eq hml
  choose! x hx0 hx using hcol
  have hsh := hs.shapeY i hi
  have dims : ∀ a < n, ∀ b < qs.getD i 0, ∑ r ∈ Finset.range R, U.get [a, r] * V.get [b, r]
      = ∑ r ∈ Finset.range R, U'.get [a, r] * V'.get [b, r] := fun a ha b hb => by
    rw [← matErr_eq_zero (zc i hi) (by rw [hsh]; exact ha) (by rw [hsh]; exact hb),
      ← matErr_eq_zero (zc' i hi) (by rw [hY, hsh]; exact ha) (by rw [hY, hsh]; exact hb), hY]
  have key := hind (fun r => V.get [b, r] - x r * V'.get [b, π.getD r 0]) (fun a ha => by
    have e := dims a ha b hb
    rw [← sum_perm hπ fun r => U'.get [a, r] * V'.get [b, r]] at e
    rw [Finset.sum_congr rfl fun r hr => show U'.get [a, π.getD r 0] * V'.get [b, π.getD r 0]
      = U.get [a, r] * (x r * V'.get [b, π.getD r 0]) by rw [hx r (Finset.mem_range.1 hr) a ha]; ring] at e
    rw [← sub_eq_zero, ← Finset.sum_sub_distrib] at e
    rw [← e]
    exact Finset.sum_congr rfl fun r _ => by ring) r hr
  rw [hx r hr a ha]
  have key : V.get [b, r] = x r * V'.get [b, π.getD r 0] := by linarith
  rw [key]; ring

/-! ### Examples -/

/-- Tensor `Σ_r e_r∘e_r∘h_r`, coupled in the first mode with the identity matrix. -/
def coupledExact : CMTFState where
  cp := ⟨ofFn [2, 2, 2] fun idx => cpEntry (fun _ => 1) [idMat2, idMat2, hadMat2 1] 2 idx, 0, ⟨2, [idMat2, idMat2, hadMat2 1], full [2] 1⟩, none, none, none,
    none, .pinf, 0⟩
  Ys := [idMat2]
  modes := [0]
  map := [(0, [0])]
  V := [idMat2]
  coupledWeights := [full [2] 1]

theorem idMat2_had_identifiable : Identifiable [idMat2, idMat2, hadMat2 1] [2, 2, 2] 2 := by
  refine ⟨0, 1, idMat2, idMat2, by norm_num, rfl, rfl, idMat2_indep, idMat2_indep, ?_, ?_⟩
  · intro r hr
    refine ⟨[0], ⟨by norm_num, trivial⟩, ?_⟩
    show (hadMat2 1).get [0, r] * 1 ≠ 0
    rw [hadMat2_get (by norm_num) hr]; norm_num
  · intro r hr s hs x h
    have h1 : (hadMat2 1).get [0, r] * 1 = x * ((hadMat2 1).get [0, s] * 1) := h [0] ⟨by norm_num, trivial⟩
    have h2 : (hadMat2 1).get [1, r] * 1 = x * ((hadMat2 1).get [1, s] * 1) := h [1] ⟨by norm_num, trivial⟩
    rw [hadMat2_get (by norm_num) hr, hadMat2_get (by norm_num) hs] at h1 h2
    interval_cases r <;> interval_cases s <;> norm_num at h1 h2 ⊢ <;> subst h1 <;> norm_num at h2

theorem sumIdx_eq_zero {s : List ℕ} {f : List ℕ → ℝ} (h : ∀ idx, Valid s idx → f idx = 0) : sumIdx s f = 0 := by
  rw [sumIdx_congr fun idx hv => h idx hv, sumIdx_zero]

theorem coupledExact_sized : coupledExact.Sized 2 [0] [2] := by
  refine ⟨⟨⟨rfl, .cons rfl (.cons rfl (.cons rfl .nil)), rfl⟩, by simp [coupledExact], by simp [coupledExact]⟩,
    .cons ⟨by simp [coupledExact], by simp [coupledExact]⟩ .nil, rfl, rfl, rfl, rfl, ?_, ?_⟩
  · intro i hi
    obtain rfl : i = 0 := by simpa using hi
    rfl
  · intro i hi
    obtain rfl : i = 0 := by simpa using hi
    rfl

theorem coupledExact_zero : CMTF.sse coupledExact = .ok 0 := by
  rw [cmtf_sse_ok coupledExact_sized]
  refine congrArg Except.ok ?_
  rw [CMTFState.trueLoss]
  have h1 : coupledExact.cp.trueSSE 2 = 0 := sumIdx_eq_zero fun idx hv => by
    have e : coupledExact.cp.X.get idx = cpEntry (fun _ => 1) [idMat2, idMat2, hadMat2 1] 2 idx := get_ofFn hv
    rw [e, sq_eq_zero_iff, sub_eq_zero]
    refine Finset.sum_congr rfl fun r hr => ?_
    have : coupledExact.cp.dec.weights.get [r] = 1 := get_full (by simpa using Finset.mem_range.1 hr)
    simp only [this]
    rfl
  rw [h1, zero_add, coupledErr]
  refine Finset.sum_eq_zero fun i hi => ?_
  obtain rfl : i = 0 := by simpa using hi
  show matErr idMat2 idMat2 idMat2 2 = 0
  refine Finset.sum_eq_zero fun a ha => Finset.sum_eq_zero fun b hb => ?_
  have ha : a < 2 := Finset.mem_range.1 ha
  have hb : b < 2 := Finset.mem_range.1 hb
  rw [Finset.sum_range_succ, Finset.sum_range_one, idMat2_get ha hb, idMat2_get ha (by norm_num), idMat2_get ha (by norm_num),
    idMat2_get hb (by norm_num), idMat2_get hb (by norm_num)]
  interval_cases a <;> interval_cases b <;> norm_num

example {s' : CMTFState} (hs' : s'.Sized 2 [0] [2]) (hX : s'.cp.X = coupledExact.cp.X) (hY : s'.Ys = coupledExact.Ys)
    (h0' : CMTF.sse s' = .ok 0) : ∃ π, IsAssignment π 2 2 ∧ ∀ r < 2, ∀ a < 2, ∀ b < 2,
      (s'.cp.dec.factorMatrices.getD 0 noArr).get [a, π.getD r 0] * (s'.V.getD 0 noArr).get [b, π.getD r 0]
        = idMat2.get [a, r] * idMat2.get [b, r] := by
  obtain ⟨π, h1, h2⟩ := C143_coupled coupledExact_sized hs' hX hY coupledExact_zero h0'
    (fun r hr => by
      have : coupledExact.cp.dec.weights.get [r] = 1 := get_full (by simpa using hr)
      rw [this]; norm_num) idMat2_had_identifiable
  exact ⟨π, h1, fun r hr a ha b hb => (h2 r hr).2 0 (by norm_num) idMat2_indep a ha b hb⟩

/-! ### The mode of a coupled matrix must have independent columns -/

/-- The `3 × 3` identity matrix and the matrix with the columns `(1, 0)`, `(0, 1)` and `(1, 1)`. -/
def idMat3 : NDArray ℝ := ofMat 3 3 fun i r => if i = r then 1 else 0
@[inherit_doc idMat3]
def depMat : NDArray ℝ := ofMat 2 3 fun i r => if r = 2 ∨ i = r then 1 else 0

theorem idMat3_get {i r : ℕ} (hi : i < 3) (hr : r < 3) : idMat3.get [i, r] = if i = r then 1 else 0 := get_ofMat hi hr
theorem depMat_get {i r : ℕ} (hi : i < 2) (hr : r < 3) : depMat.get [i, r] = if r = 2 ∨ i = r then 1 else 0 := get_ofMat hi hr

theorem idMat3_indep : IndepColumns idMat3 3 3 := by
  intro v hv j hj
  have := hv j hj
  rw [Finset.sum_range_succ, Finset.sum_range_succ, Finset.sum_range_one, idMat3_get hj (by norm_num), idMat3_get hj (by norm_num),
    idMat3_get hj (by norm_num)] at this
  interval_cases j <;> simpa using this

/-- Coupled in the last mode with the zero matrix; `x` scales the uncoupled factor matrix `(1, 1, -1)`. -/
def coupledDep (x : ℝ) : CMTFState where
  cp := ⟨ofFn [3, 3, 2] fun idx => cpEntry (fun _ => 1) [idMat3, idMat3, depMat] 3 idx, 0, ⟨3, [idMat3, idMat3, depMat], full [3] 1⟩, none, none, none,
    none, .pinf, 0⟩
  Ys := [full [2, 1] 0]
  modes := [2]
  map := [(2, [0])]
  V := [ofMat 1 3 fun _ r => if r = 2 then -x else x]
  coupledWeights := [full [3] 1]

theorem coupledDep_sized (x : ℝ) : (coupledDep x).Sized 3 [2] [1] := by
  refine ⟨⟨⟨rfl, .cons rfl (.cons rfl (.cons rfl .nil)), rfl⟩, by simp [coupledDep], by simp [coupledDep]⟩,
    .cons ⟨by simp [coupledDep], by simp [coupledDep]⟩ .nil, rfl, rfl, rfl, rfl, ?_, ?_⟩
  · intro i hi
    obtain rfl : i = 0 := by simpa using hi
    rfl
  · intro i hi
    obtain rfl : i = 0 := by simpa using hi
    rfl

/-- **C143**, independent columns are needed: the coupled matrix is in a mode with more components than rows. Two fits of the same data
with error zero and identifiable models of the tensor have different components of the coupled matrix: those of one are all zero,
those of the other are not. -/
theorem C143_dependent : ∃ s s' : CMTFState, s.Sized 3 [2] [1] ∧ s'.Sized 3 [2] [1] ∧ s'.cp = s.cp ∧ s'.Ys = s.Ys ∧
    CMTF.sse s = .ok 0 ∧ CMTF.sse s' = .ok 0 ∧ Identifiable s.cp.dec.factorMatrices s.cp.X.shape 3 ∧
    (∀ a < 2, ∀ r < 3, (s.cp.dec.factorMatrices.getD 2 noArr).get [a, r] * (s.V.getD 0 noArr).get [0, r] = 0) ∧
    ∀ r < 3, ∃ a < 2, (s'.cp.dec.factorMatrices.getD 2 noArr).get [a, r] * (s'.V.getD 0 noArr).get [0, r] ≠ 0 := by
  have hV : ∀ x : ℝ, ∀ r < 3, (ofMat 1 3 fun _ r => if r = 2 then -x else x : NDArray ℝ).get [0, r] = if r = 2 then -x else x :=
    fun x r hr => get_ofMat (by norm_num) hr
  have h0 : ∀ x, CMTF.sse (coupledDep x) = .ok 0 := fun x => by
    rw [cmtf_sse_ok (coupledDep_sized x)]
    refine congrArg Except.ok ?_
    rw [CMTFState.trueLoss]
    have h1 : (coupledDep x).cp.trueSSE 3 = 0 := sumIdx_eq_zero fun idx hv => by
      have e : (coupledDep x).cp.X.get idx = cpEntry (fun _ => 1) [idMat3, idMat3, depMat] 3 idx := get_ofFn hv
      rw [e, sq_eq_zero_iff, sub_eq_zero]
      refine Finset.sum_congr rfl fun r hr => ?_
      have : (coupledDep x).cp.dec.weights.get [r] = 1 := get_full (by simpa using Finset.mem_range.1 hr)
      simp only [this]
      rfl
    rw [h1, zero_add, coupledErr]
    refine Finset.sum_eq_zero fun i hi => ?_
    obtain rfl : i = 0 := by simpa using hi
    show matErr (full [2, 1] 0) depMat (ofMat 1 3 fun _ r => if r = 2 then -x else x) 3 = 0
    refine Finset.sum_eq_zero fun a ha => Finset.sum_eq_zero fun b hb => ?_
    have ha : a < 2 := Finset.mem_range.1 ha
    obtain rfl : b = 0 := by simpa using hb
    rw [get_full (by simp [ha]), Finset.sum_range_succ, Finset.sum_range_succ, Finset.sum_range_one, hV x 0 (by norm_num),
      hV x 1 (by norm_num), hV x 2 (by norm_num), depMat_get ha (by norm_num), depMat_get ha (by norm_num), depMat_get ha (by norm_num)]
    interval_cases a <;> norm_num
  refine ⟨coupledDep 0, coupledDep 1, coupledDep_sized 0, coupledDep_sized 1, rfl, rfl, h0 0, h0 1, ?_, ?_, ?_⟩
  · refine ⟨0, 1, idMat3, idMat3, by norm_num, rfl, rfl, idMat3_indep, idMat3_indep, ?_, ?_⟩
    · intro r hr
      by_cases h1 : r = 1
      · refine ⟨[1], ⟨by norm_num, trivial⟩, ?_⟩
        show depMat.get [1, r] * 1 ≠ 0
        rw [depMat_get (by norm_num) hr]; simp [h1]
      · refine ⟨[0], ⟨by norm_num, trivial⟩, ?_⟩
        show depMat.get [0, r] * 1 ≠ 0
        rw [depMat_get (by norm_num) hr, if_pos (by omega)]; norm_num
    · intro r hr s hs x h
      have h1 : depMat.get [0, r] * 1 = x * (depMat.get [0, s] * 1) := h [0] ⟨by norm_num, trivial⟩
      have h2 : depMat.get [1, r] * 1 = x * (depMat.get [1, s] * 1) := h [1] ⟨by norm_num, trivial⟩
      rw [depMat_get (by norm_num) hr, depMat_get (by norm_num) hs] at h1 h2
      interval_cases r <;> interval_cases s <;> first
        | rfl
        | (exfalso; norm_num at h1; done)
        | (exfalso; norm_num at h2; done)
        | (exfalso; norm_num at h1 h2; linarith)
  · intro a ha r hr
    show depMat.get [a, r] * (ofMat 1 3 fun _ r => if r = 2 then -0 else 0 : NDArray ℝ).get [0, r] = 0
    rw [hV 0 r hr]; simp
  · intro r hr
    refine ⟨if r = 1 then 1 else 0, by split <;> norm_num, ?_⟩
    show depMat.get [_, r] * (ofMat 1 3 fun _ r => if r = 2 then -1 else 1 : NDArray ℝ).get [0, r] ≠ 0
    rw [hV 1 r hr, depMat_get (by split <;> norm_num) hr]
    interval_cases r <;> norm_num

end

end TK
