import Verif.Props.CMTF
import Verif.Props.Kruskal

/-!
# Coupled matrix and tensor factorisation: normalisation (C60), MSE (C67), shared modes (C58), non-negativity (C59)
-/

namespace TK
open NDArray

noncomputable section

/-! ## C60 -/

/-- A matrix whose columns are multiplied by the column lengths of `F`. -/
def scaledBy (V F : NDArray ℝ) (n q R : ℕ) : NDArray ℝ := ofMat q R fun k r => V.get [k, r] * colLen F n r

theorem scaleLoop_ok {fs : List (NDArray ℝ)} {R : ℕ} : ∀ {Vs : List (NDArray ℝ)} {modes : List Int} {Fs : List (NDArray ℝ)}
    {ns qs : ℕ → ℕ}, List.Forall₂ (fun m F => pyGet fs m = .ok F) modes Fs → Vs.length = Fs.length →
    (∀ i < Fs.length, (Fs.getD i noArr).shape = [ns i, R] ∧ (Vs.getD i noArr).shape = [qs i, R]) →
    ∃ Vs', CMTF.scaleLoop fs Vs modes = .ok Vs' ∧ Vs'.length = Vs.length ∧
      ∀ i < Fs.length, Vs'.getD i noArr = scaledBy (Vs.getD i noArr) (Fs.getD i noArr) (ns i) (qs i) R := by
  intro Vs
  induction Vs with
  | nil =>
    intro modes Fs ns qs _ hl _
    refine ⟨[], by cases modes <;> rfl, rfl, fun i hi => ?_⟩
    simp only [List.length_nil] at hl
    omega
  | cons V Vs ih =>
    intro modes Fs ns qs hF hl hs
    cases hF with
    | nil => simp at hl
    | cons h1 h2 =>
      rename_i m F ms Fs
      obtain ⟨a, b⟩ := hs 0 (by simp)
      simp only [List.getD_cons_zero] at a b
      obtain ⟨Vs', e, h3, h4⟩ := ih (ns := fun i => ns (i + 1)) (qs := fun i => qs (i + 1)) h2 (by simpa using hl)
        (fun i hi => by simpa using hs (i + 1) (by simpa using hi))
      have hz : zipB (· * ·) V (newaxis0 (colNorms F)) = .ok (scaledBy V F (ns 0) (qs 0) R) := by
        rw [zipB_mat_row _ (by rw [shape_newaxis0, shape_colNorms a]) b]
        refine congrArg Except.ok (ofMat_congr fun i hi r hr => ?_)
        rw [get_newaxis0, colNorms_get a hr]
      refine ⟨scaledBy V F (ns 0) (qs 0) R :: Vs', ?_, by simp [h3], fun i hi => ?_⟩
      · rw [CMTF.scaleLoop, h1, bind_ok, hz, bind_ok, assignAll_same (by rw [b]; rfl), bind_ok, e]; rfl
      · match i with
        | 0 => rfl
        | i + 1 => simpa using h4 i (by simpa using hi)

/-- `_normalize_components` never fails, and what it does. -/
theorem cmtf_normalize_ok {s : CMTFState} {R : ℕ} {ms qs : List ℕ} (h : s.Sized R ms qs) (eps : ℝ) :
    ∃ s', CMTF.normalizeComponents s eps = .ok s' ∧ s'.Sized R ms qs ∧ s'.cp.X = s.cp.X ∧ s'.Ys = s.Ys ∧ s'.modes = s.modes ∧
      s.cp.dec.normalizeComponents true eps = .ok s'.cp.dec ∧
      s'.cp.dec.factorMatrices = List.zipWith (fun F m => normMat F m R eps) s.cp.dec.factorMatrices s.cp.X.shape ∧
      (∀ i < ms.length, s'.V.getD i noArr = scaledBy (s.V.getD i noArr) (s.cp.dec.factorMatrices.getD (ms.getD i 0) noArr)
        (s.cp.X.shape.getD (ms.getD i 0) 0) (qs.getD i 0) R) := by
  have hU : ∀ i < ms.length, (ms.map fun m => s.cp.dec.factorMatrices.getD m noArr).getD i noArr
      = s.cp.dec.factorMatrices.getD (ms.getD i 0) noArr := by
    intro i hi
    rw [getD_of_lt (by simpa using hi), List.getElem_map, getD_of_lt hi]
  have hF : List.Forall₂ (fun m F => pyGet s.cp.dec.factorMatrices m = .ok F) s.modes
      (ms.map fun m => s.cp.dec.factorMatrices.getD m noArr) := by
    rw [List.forall₂_iff_get]
    refine ⟨by simpa using h.lenM, fun i h1 h2 => ?_⟩
    have hi : i < ms.length := by simpa using h2
    have := h.getFactor hi
    rw [getD_of_lt hi] at this
    simpa using this
  obtain ⟨Vs', e1, h1, h2⟩ := scaleLoop_ok (fs := s.cp.dec.factorMatrices) (Vs := s.V) (R := R)
    (ns := fun i => s.cp.X.shape.getD (ms.getD i 0) 0) (qs := fun i => qs.getD i 0) hF (by simpa using h.lenV)
    (fun i hi => by
      have hi : i < ms.length := by simpa using hi
      rw [hU i hi]
      exact ⟨h.shapeU hi, h.shapeV i hi⟩)
  have h2' : ∀ i < ms.length, Vs'.getD i noArr = scaledBy (s.V.getD i noArr)
      (s.cp.dec.factorMatrices.getD (ms.getD i 0) noArr) (s.cp.X.shape.getD (ms.getD i 0) 0) (qs.getD i 0) R := by
    intro i hi
    rw [h2 i (by simpa using hi), hU i hi]
  obtain ⟨t, e2, wf, hf, hw⟩ := normalizeComponents_ok h.cp.wf true eps
  refine ⟨⟨{ s.cp with dec := t }, s.Ys, s.modes, s.map, Vs', s.coupledWeights⟩, ?_, ?_, rfl, rfl, rfl, e2, hf, h2'⟩
  · rw [CMTF.normalizeComponents, e1, bind_ok, e2]; rfl
  · exact ⟨⟨wf, h.cp.order, h.cp.nonempty⟩, h.modes, h.map, h.lenY, h1.trans h.lenV, h.lenW, h.shapeY,
      fun i hi => by rw [h2' i hi]; rfl⟩

/-- **C60.** The final normalisation of `CMTF_ALS` never fails. It multiplies component `r` of the tensor by `∏ n / (n + eps)`
over the modes and component `r` of coupled matrix `i` by `n / (n + eps)`, where `n` is the length of column `r` of the factor
matrix of the mode. -/
theorem C60_normalisation {s : CMTFState} {R : ℕ} {ms qs : List ℕ} (h : s.Sized R ms qs) {eps : ℝ} (he : 0 < eps) :
    ∃ s' X', CMTF.normalizeComponents s eps = .ok s' ∧ s'.Sized R ms qs ∧ s'.cp.X = s.cp.X ∧ s'.Ys = s.Ys ∧
      s'.cp.dec.constructTensor = .ok X' ∧ X'.shape = s.cp.X.shape ∧
      (∀ idx, Valid s.cp.X.shape idx → X'.get idx = ∑ r ∈ Finset.range R,
        modeProd (fun F m => colLen F m r / (colLen F m r + eps)) s.cp.dec.factorMatrices s.cp.X.shape *
          (s.cp.dec.weights.get [r] * rankOne s.cp.dec.factorMatrices idx r)) ∧
      ∃ Zs, CMTF.reconstructed s' = .ok Zs ∧ Zs.length = ms.length ∧
        ∀ i < ms.length, (Zs.getD i noArr).shape = (s.Ys.getD i noArr).shape ∧
          ∀ j < s.cp.X.shape.getD (ms.getD i 0) 0, ∀ k < qs.getD i 0, (Zs.getD i noArr).get [j, k] = ∑ r ∈ Finset.range R,
            colLen (s.cp.dec.factorMatrices.getD (ms.getD i 0) noArr) (s.cp.X.shape.getD (ms.getD i 0) 0) r
              / (colLen (s.cp.dec.factorMatrices.getD (ms.getD i 0) noArr) (s.cp.X.shape.getD (ms.getD i 0) 0) r + eps) *
            ((s.cp.dec.factorMatrices.getD (ms.getD i 0) noArr).get [j, r] * (s.V.getD i noArr).get [k, r]) := by
  obtain ⟨s', e, hs', hX, hY, -, hd, hf, hV⟩ := cmtf_normalize_ok h eps
  obtain ⟨t, X', e1, -, e2, e3, e4, -⟩ := C16_normalize_components h.cp.wf h.cp.order he
  rw [hd] at e1
  obtain rfl : s'.cp.dec = t := by injection e1
  refine ⟨s', X', e, hs', hX, hY, e2, e3, e4, ?_⟩
  obtain ⟨Zs, g1, g2, g3⟩ := reconstructed_ok hs'
  refine ⟨Zs, g1, g2, fun i hi => ?_⟩
  rw [g3 i hi, hX]
  refine ⟨by rw [h.shapeY i hi]; rfl, fun j hj k hk => ?_⟩
  rw [prodT, get_ofMat hj hk]
  refine Finset.sum_congr rfl fun r hr => ?_
  have hr : r < R := by simpa using hr
  have hm := (h.mode hi).1
  have hm' : ms.getD i 0 < s.cp.dec.factorMatrices.length := by rw [h.cp.wf.factors.length_eq]; exact hm
  have hU : s'.cp.dec.factorMatrices.getD (ms.getD i 0) noArr = normMat (s.cp.dec.factorMatrices.getD (ms.getD i 0) noArr)
      (s.cp.X.shape.getD (ms.getD i 0) 0) R eps := by
    rw [hf, getD_of_lt (by simpa using ⟨hm', hm⟩), List.getElem_zipWith, getD_of_lt hm', getD_of_lt hm]
  rw [hU, hV i hi, normMat, get_ofMat hj hr, scaledBy, get_ofMat hk hr]
  ring

/-! ## C67 for `CMTF_ALS` -/

/-- The number of entries of the coupled matrices, when matrix `i` has `qs i` columns. -/
def coupledSize (shape ms : List ℕ) (qs : ℕ → ℕ) : ℕ := ∑ i ∈ Finset.range ms.length, shape.getD (ms.getD i 0) 0 * qs i

theorem list_sum_range {β : Type} (l : List β) (f : β → ℕ) (d : β) :
    (l.map f).sum = ∑ i ∈ Finset.range l.length, f (l.getD i d) := by
  induction l with
  | nil => simp
  | cons a l ih =>
    rw [List.map_cons, List.sum_cons, ih, List.length_cons, Finset.sum_range_succ']
    simp [add_comm]

theorem cmtf_prod_pos {s : CMTFState} {R : ℕ} {ms qs : List ℕ} (h : s.Sized R ms qs) : 0 < s.cp.X.shape.prod :=
  Nat.pos_of_ne_zero (List.prod_ne_zero fun h0 => h.cp.nonempty 0 h0 rfl)

/-- **C67** for `CMTF_ALS`, what holds: the coupled SSE is divided by the number of entries of `X` plus `n_i R` for every coupled
matrix with `n_i` rows. This is the number of data entries if every coupled matrix has as many columns as the model has
components. Missing: other numbers of columns (false, `C67_cmtf_wrong`). -/
theorem C67_cmtf_partial {s : CMTFState} {R : ℕ} {ms qs : List ℕ} (h : s.Sized R ms qs) :
    CMTF.mse s = .ok (.fin (s.trueLoss R ms / ((s.cp.X.shape.prod : ℝ) + coupledSize s.cp.X.shape ms fun _ => R))) ∧
    ((∀ i < ms.length, qs.getD i 0 = R) → CMTF.mse s
      = .ok (.fin (s.trueLoss R ms / ((s.cp.X.shape.prod : ℝ) + coupledSize s.cp.X.shape ms fun i => qs.getD i 0)))) := by
  have hp := cmtf_prod_pos h
  have key : CMTF.mse s
      = .ok (.fin (s.trueLoss R ms / ((s.cp.X.shape.prod : ℝ) + coupledSize s.cp.X.shape ms fun _ => R))) := by
    have hsum : ((ms.map fun m => s.cp.dec.factorMatrices.getD m noArr).map fun U => U.shape.prod).sum
        = coupledSize s.cp.X.shape ms fun _ => R := by
      rw [List.map_map, list_sum_range _ _ 0, coupledSize]
      refine Finset.sum_congr rfl fun i hi => ?_
      rw [Function.comp_apply, h.shapeU (by simpa using hi)]
      simp
    rw [CMTF.mse, coupledFactors_ok h, bind_ok, cmtf_sse_ok h, bind_ok, hsum, FV.div, if_pos (by
      have : 0 < s.cp.X.shape.prod + coupledSize s.cp.X.shape ms fun _ => R := by omega
      exact_mod_cast this.ne')]
    push_cast
    rfl
  refine ⟨key, fun hq => ?_⟩
  rw [key]
  have : (coupledSize s.cp.X.shape ms fun i => qs.getD i 0) = coupledSize s.cp.X.shape ms fun _ => R :=
    Finset.sum_congr rfl fun i hi => congrArg _ (hq i (by simpa using hi))
  rw [this]

/-- **C67, refuted** for `CMTF_ALS`: unless the coupled matrices have `R` columns on the average (over their rows) or the fit is
perfect, `MSE` is not the mean of the squared errors. -/
theorem C67_cmtf_wrong {s : CMTFState} {R : ℕ} {ms qs : List ℕ} (h : s.Sized R ms qs) (he : s.trueLoss R ms ≠ 0)
    (hne : (coupledSize s.cp.X.shape ms fun i => qs.getD i 0) ≠ coupledSize s.cp.X.shape ms fun _ => R) :
    CMTF.mse s ≠ .ok (.fin (s.trueLoss R ms / ((s.cp.X.shape.prod : ℝ) + coupledSize s.cp.X.shape ms fun i => qs.getD i 0))) := by
  rw [(C67_cmtf_partial h).1]
  intro hc
  have hp : (0 : ℝ) < s.cp.X.shape.prod := by exact_mod_cast cmtf_prod_pos h
  have hc : s.trueLoss R ms / ((s.cp.X.shape.prod : ℝ) + (coupledSize s.cp.X.shape ms fun _ => R : ℕ))
      = s.trueLoss R ms / ((s.cp.X.shape.prod : ℝ) + (coupledSize s.cp.X.shape ms fun i => qs.getD i 0 : ℕ)) := by simpa using hc
  rw [div_eq_div_iff (by positivity) (by positivity)] at hc
  have := mul_left_cancel₀ he hc
  exact hne (by exact_mod_cast add_left_cancel this)

/-! ## Small states -/

/-- A state with a matrix `X = A Bᵀ` to be fitted and coupled matrices. -/
def cmtfPair (X A B w : NDArray ℝ) (R : ℕ) (Ys V : List (NDArray ℝ)) (modes : List Int) : CMTFState :=
  ⟨⟨X, frobNorm X, ⟨R, [A, B], w⟩, some [false, false], some [false, false], none, none, .pinf, 0⟩, Ys, modes,
    CMTF.mapFrom 0 modes [], V, modes.map fun _ => full [R] 1⟩

theorem cmtfPair_sized {X A B w : NDArray ℝ} {n k R : ℕ} {Ys V : List (NDArray ℝ)} {modes : List Int} {ms qs : List ℕ}
    (hn : n ≠ 0) (hk : k ≠ 0) (hX : X.shape = [n, k]) (hA : A.shape = [n, R]) (hB : B.shape = [k, R]) (hw : w.shape = [R])
    (hm : List.Forall₂ (fun a m => IsMode a 2 m) modes ms) (hY : Ys.length = ms.length) (hV : V.length = ms.length)
    (sY : ∀ i < ms.length, (Ys.getD i noArr).shape = [[n, k].getD (ms.getD i 0) 0, qs.getD i 0])
    (sV : ∀ i < ms.length, (V.getD i noArr).shape = [qs.getD i 0, R]) :
    (cmtfPair X A B w R Ys V modes).Sized R ms qs where
  cp := ⟨⟨rfl, by show Factors [A, B] X.shape R; rw [hX]; exact .cons hA (.cons hB .nil), hw⟩,
    by show 2 ≤ X.shape.length; rw [hX]; simp,
    by show ∀ n ∈ X.shape, n ≠ 0; rw [hX]; simp [hn, hk]⟩
  modes := by show List.Forall₂ (fun a m => IsMode a X.shape.length m) modes ms; rw [hX]; exact hm
  map := rfl
  lenY := hY
  lenV := hV
  lenW := by simp [cmtfPair, hm.length_eq]
  shapeY := by
    show ∀ i < ms.length, (Ys.getD i noArr).shape = [X.shape.getD (ms.getD i 0) 0, qs.getD i 0]
    rw [hX]; exact sY
  shapeV := sV

theorem cmtfPair_conf {X A B w : NDArray ℝ} {n k R : ℕ} {Ys V : List (NDArray ℝ)} {modes : List Int} {o : CPOpts}
    (hX : X.shape = [n, k]) (ho : o.ridgePenalties = none) : ∀ m < (cmtfPair X A B w R Ys V modes).cp.X.shape.length,
    (cmtfPair X A B w R Ys V modes).cp.ModeConfig o m false false none := by
  intro m hm
  have hm : m < 2 := by
    have : m < X.shape.length := hm
    simpa [hX] using this
  have : [false, false][m]? = some false := by
    match m with
    | 0 => rfl
    | 1 => rfl
    | _ + 2 => omega
  exact ⟨⟨_, rfl, this⟩, ⟨_, rfl, this⟩, Or.inl ⟨ho, rfl⟩⟩

theorem cmtfPair_cfg {X A B w : NDArray ℝ} {n k R : ℕ} {Ys V : List (NDArray ℝ)} {modes : List Int} {o : CPOpts}
    (hX : X.shape = [n, k]) (ho : o.ridgePenalties = none) : (cmtfPair X A B w R Ys V modes).Cfg o :=
  ⟨by show some [false, false] = some (List.replicate X.shape.length false); rw [hX]; rfl,
    fun m hm => ⟨_, _, cmtfPair_conf hX ho m hm⟩⟩

/-- `1 × 1` matrices. -/
def one1 (x : ℝ) : NDArray ℝ := ofMat 1 1 fun _ _ => x

@[simp] theorem shape_one1 (x : ℝ) : (one1 x).shape = [1, 1] := rfl
@[simp] theorem get_one1 (x : ℝ) : (one1 x).get [0, 0] = x := by rw [one1, get_ofMat (by norm_num) (by norm_num)]

theorem isMode_nat {d m : ℕ} (h : m < d) : IsMode (m : Int) d m := ⟨h, Or.inl rfl⟩

/-! ## The hypotheses of C57, C60 and C67 -/

/-- A `2 × 3` matrix with two components, a `2 × 4` matrix coupled to its rows and a `3 × 2` matrix coupled to its columns. -/
def cmtfExample : CMTFState :=
  cmtfPair (full [2, 3] 1) (full [2, 2] 2) (full [3, 2] 3) (full [2] 1) 2 [full [2, 4] 5, full [3, 2] 6] [full [4, 2] 7, full [2, 2] 8]
    [0, 1]

theorem cmtfExample_sized : cmtfExample.Sized 2 [0, 1] [4, 2] := by
  refine cmtfPair_sized (n := 2) (k := 3) (by decide) (by decide) rfl rfl rfl rfl
    (.cons (isMode_nat (m := 0) (by decide)) (.cons (isMode_nat (m := 1) (by decide)) .nil)) rfl rfl ?_ ?_
  · intro i hi
    have : i < 2 := hi
    interval_cases i <;> rfl
  · intro i hi
    have : i < 2 := hi
    interval_cases i <;> rfl

theorem cmtfExample_free : cmtfExample.Free ⟨2, 1e-8, 1e-8, none⟩ [0, 1] := ⟨rfl, cmtfPair_conf rfl rfl⟩

/-- `C57_partial` and `C57_first_matrices`. -/
example {E : Ext} (hE : E.SVDOk) (hN : E.NNLSOk) : ∃ s', CMTF.iteration E ⟨2, 1e-8, 1e-8, none⟩ cmtfExample = .ok s' ∧
    s'.trueLoss 2 [0, 1] ≤ cmtfExample.trueLoss 2 [0, 1] := by
  obtain ⟨s', h1, -, -, h4, -⟩ := C57_partial hE hN (o := ⟨2, 1e-8, 1e-8, none⟩) (by decide) cmtfExample_sized
    (cmtfPair_cfg rfl rfl) cmtfExample_free (by decide) (fun r hr => get_full (s := [2]) ⟨hr, trivial⟩)
  exact ⟨s', h1, h4⟩

/-- `C60_normalisation`. -/
example : ∃ s', CMTF.normalizeComponents cmtfExample 1e-15 = .ok s' ∧ s'.Sized 2 [0, 1] [4, 2] := by
  obtain ⟨s', X', h1, h2, -⟩ := C60_normalisation cmtfExample_sized (eps := 1e-15) (by norm_num)
  exact ⟨s', h1, h2⟩

/-- `C67_cmtf_partial`: the loss is divided by `6 + 2·2 + 3·2` although there are `6 + 2·4 + 3·2` entries. -/
example : CMTF.mse cmtfExample = .ok (.fin (cmtfExample.trueLoss 2 [0, 1] / 16)) := by
  rw [(C67_cmtf_partial cmtfExample_sized).1]
  have h1 : cmtfExample.cp.X.shape.prod = 6 := rfl
  have h2 : coupledSize cmtfExample.cp.X.shape [0, 1] (fun _ => 2) = 10 := by
    simp [coupledSize, cmtfExample, cmtfPair, Finset.sum_range_succ]
  rw [h1, h2]
  norm_num

end
end TK
