import Verif.Lemmas.Binary
import Verif.Model.RoundedFits
import Verif.Props.Rounding

/-!
# C134 in double precision: the reported error can be negative
-/

namespace TK
open NDArray

noncomputable section

/-- Rounding of double precision. -/
local notation "dbl" => roundBits 53

theorem sqrt3_bounds : (7800463371553961.5 : ℝ) / 2 ^ 52 < Real.sqrt 3 ∧ Real.sqrt 3 < (7800463371553962.5 : ℝ) / 2 ^ 52 := by
  constructor
  · apply Real.lt_sqrt_of_sq_lt; norm_num
  · rw [Real.sqrt_lt' (by norm_num)]; norm_num

theorem dbl_int {z : ℤ} (h : |z| < 2 ^ 53) : dbl (z : ℝ) = z := roundBits_exact (e := 0) (by simp) h

theorem dbl_sqrt3 : dbl (Real.sqrt 3) = 7800463371553962 / 2 ^ 52 := by
  obtain ⟨h1, h2⟩ := sqrt3_bounds
  have hp : 0 ≤ Real.sqrt 3 := Real.sqrt_nonneg 3
  rw [roundBits_eq (k := 0) (z := 7800463371553962)]
  · norm_num
  · rw [abs_of_nonneg hp]; norm_num
  · rw [abs_of_nonneg hp]
    refine lt_of_lt_of_le h2 ?_
    norm_num
  · have e : ((0 : ℤ) - (((53 : ℕ) : ℤ) - 1)) = -52 := by norm_num
    rw [e, zpow_neg, div_inv_eq_mul]
    have e2 : (2 : ℝ) ^ (52 : ℤ) = 2 ^ 52 := by norm_cast
    rw [e2, abs_lt]
    rw [div_lt_iff₀ (by positivity)] at h1
    rw [lt_div_iff₀ (by positivity)] at h2
    push_cast
    constructor <;> linarith

theorem dbl_sq : dbl ((7800463371553962 / 2 ^ 52 : ℝ) * (7800463371553962 / 2 ^ 52)) = 3 - 1 / 2 ^ 51 := by
  have e : ((1 : ℤ) - (((53 : ℕ) : ℤ) - 1)) = -51 := by norm_num
  have e2 : (2 : ℝ) ^ (51 : ℤ) = 2 ^ 51 := by norm_cast
  rw [roundBits_eq (k := 1) (z := 6755399441055743)]
  · rw [e, zpow_neg, e2]; norm_num
  · rw [abs_of_nonneg (by positivity)]; norm_num
  · rw [abs_of_nonneg (by positivity)]; norm_num
  · rw [e, zpow_neg, div_inv_eq_mul, e2, abs_lt]
    constructor <;> norm_num

theorem dbl_final : dbl (dbl ((3 - 1 / 2 ^ 51 : ℝ) + (3 - 1 / 2 ^ 51)) - 6) = -(1 / 2 ^ 50) := by
  have e : dbl ((3 - 1 / 2 ^ 51 : ℝ) + (3 - 1 / 2 ^ 51)) = (3 - 1 / 2 ^ 51 : ℝ) + (3 - 1 / 2 ^ 51) := by
    apply roundBits_exact (z := 6755399441055743) (e := -50)
    · have e2 : (2 : ℝ) ^ (50 : ℤ) = 2 ^ 50 := by norm_cast
      rw [zpow_neg, e2]; norm_num
    · norm_num
  rw [e]
  have e3 : ((3 - 1 / 2 ^ 51 : ℝ) + (3 - 1 / 2 ^ 51)) - 6 = -(1 / 2 ^ 50) := by norm_num
  rw [e3]
  apply roundBits_exact (z := -1) (e := -50)
  · have e2 : (2 : ℝ) ^ (50 : ℤ) = 2 ^ 50 := by norm_cast
    rw [zpow_neg, e2]; norm_num
  · norm_num

/-- The tensor of three ones and its exact decomposition, as an object of `CP_ALS` holds them after a sweep of updates: the
third factor matrix was updated last. -/
def onesState : CPState where
  X := full [3, 1, 1] 1
  XNorm := dbl (Real.sqrt 3)
  dec := ⟨1, [full [3, 1] 1, full [1, 1] 1, full [1, 1] 1], full [1] 1⟩
  nonNeg := none
  orth := none
  lastMode := some 2
  cache := some (full [1, 1] 3)
  relChange := .pinf
  prevSSE := 3

theorem ones_sized : onesState.Sized 1 :=
  ⟨⟨rfl, .cons rfl (.cons rfl (.cons rfl .nil)), rfl⟩, by decide, by decide⟩

theorem dbl_one : dbl 1 = 1 := by simpa using dbl_int (z := 1) (by norm_num)

theorem dbl_three : dbl 3 = 3 := by simpa using dbl_int (z := 3) (by norm_num)

theorem flMul_one : flMul dbl 1 1 = 1 := by rw [flMul, one_mul, dbl_one]

/-- The inner product of `n` ones with ones. -/
theorem ones_dot {f g : ℕ → ℝ} {n : ℕ} {v : ℝ} (h : FlDot dbl f g (Finset.range n) v) (hf : ∀ i < n, f i = 1)
    (hg : ∀ i < n, g i = 1) (hn : n < 2 ^ 53) : v = n := by
  have := h.int (fun _ => 1) (fun i hi => by
    have hi := Finset.mem_range.1 hi
    rw [hf i hi, hg i hi]; simp) (by simpa using hn)
  simpa using this

theorem ones_norm {A : NDArray ℝ} {v : ℝ} (h : FlNorm dbl A v) (hs : A.shape = [3, 1, 1])
    (h1 : ∀ idx, Valid A.shape idx → A.get idx = 1) : v = dbl (Real.sqrt 3) := by
  obtain ⟨q, hq, rfl⟩ := h
  have hp : A.shape.prod = 3 := by rw [hs]; rfl
  rw [hp] at hq
  have hf : ∀ i < 3, A.flat i = 1 := fun i hi => by
    have hi : i < A.shape.prod := by omega
    rw [flat_eq_get A hi, h1 _ (unravel_valid hi)]
  rw [ones_dot hq hf hf (by norm_num)]
  norm_num

theorem ones_kr {n : ℕ} : flKhatriRao dbl [full [n, 1] 1, full [1, 1] 1] none = .ok (full [n, 1] 1) := by
  have e := flKr_eq (rnd := dbl) (A := full [n, 1] 1) (B := full [1, 1] 1) (I := n) (J := 1) (K := 1) rfl rfl
  have e2 : flKhatriRao dbl [full [n, 1] 1, full [1, 1] 1] none
      = (flKr dbl (full [n, 1] 1) (full [1, 1] 1) >>= fun p => pure p) := rfl
  rw [e2, e, bind_ok]
  refine congrArg Except.ok (ext_mat (m := n) (n := 1) (by simp) rfl fun i hi j hj => ?_)
  obtain rfl : j = 0 := by omega
  rw [get_ofMat (by simpa using hi) (by omega), Nat.div_one, Nat.mod_one]
  have h1 : (full [n, 1] (1 : ℝ)).get [i, 0] = 1 := get_full (by simp [hi])
  have h2 : (full [1, 1] (1 : ℝ)).get [0, 0] = 1 := get_full (by simp)
  rw [h1, h2, flMul_one]

theorem ones_construct {Y : NDArray ℝ} (h : FlConstruct dbl onesState.dec Y) :
    Y.shape = [3, 1, 1] ∧ ∀ idx, Valid [3, 1, 1] idx → Y.get idx = 1 := by
  obtain ⟨shape, f0, wf, krp, M, e1, e2, e3, e4, e5, e6⟩ := h
  obtain rfl : [3, 1, 1] = shape := Except.ok.inj e1
  obtain rfl : full [3, 1] 1 = f0 := Except.ok.inj e2
  rw [zipB_row_mat (m := 3) (n := 1) _ rfl rfl] at e3
  obtain rfl := Except.ok.inj e3
  have e4' : flKhatriRao dbl [full [1, 1] 1, full [1, 1] 1] none = .ok krp := e4
  rw [ones_kr] at e4'
  obtain rfl := Except.ok.inj e4'
  obtain ⟨hM, hMa⟩ := e5.entry (m := 3) (k := 1) (n := 1) rfl rfl
  rw [fold_eq _ (k := 0) (normIdx_zero (by simp)) (by simp [hM])] at e6
  obtain rfl := Except.ok.inj e6
  refine ⟨rfl, fun idx hidx => ?_⟩
  obtain ⟨i, is, rfl, hi, his⟩ := valid_cons_iff.1 hidx
  have hr := ravel_lt his
  have hr0 : ravel [1, 1] is = 0 := by simpa using hr
  rw [get_ofFn hidx]
  simp only [List.getD_cons_zero, List.eraseIdx_cons_zero]
  have hflat : M.flat (i * [1, 1].prod + ravel [1, 1] is) = M.get [i, 0] := by
    rw [NDArray.get, hM, hr0]; simp [ravel]
  rw [hflat]
  have := ones_dot (hMa i hi 0 (by norm_num)) (fun l hl => by
    obtain rfl : l = 0 := by omega
    rw [get_ofMat hi (by norm_num)]
    have hw : (newaxis0 onesState.dec.weights).get [0, 0] = 1 := by
      simp [newaxis0, NDArray.get, ravel, NDArray.flat, onesState, full, ofFn, ofFlat]
    rw [hw, get_full (by simp [hi]), flMul_one]) (fun l hl => by
    obtain rfl : l = 0 := by omega
    rw [get_T (m := 1) (n := 1) rfl (by norm_num) (by norm_num), get_full (by simp)]) (by norm_num)
  simpa using this

theorem ones_mttkrp {M : NDArray ℝ} (h : FlMttkrp dbl onesState.X onesState.dec.factorMatrices 2 M) : M = full [1, 1] 3 := by
  obtain ⟨-, krp, ek, h⟩ := h
  rw [if_neg (by decide), if_neg (by decide), if_pos (show onesState.dec.factorMatrices.length = 3 from rfl)] at h
  obtain ⟨-, U, eU, hM⟩ := h
  have ek' : flKhatriRao dbl [full [3, 1] 1, full [1, 1] 1] none = .ok krp := by
    rw [← ek]
    exact (khatriRao_skip_gen (α := Fl dbl) (fs := onesState.dec.factorMatrices) (n := ((2 : ℕ) : Int)) (k := 2) rfl).symm
  rw [ones_kr] at ek'
  obtain rfl := Except.ok.inj ek'
  have hu2 : (onesState.X.moveaxis (-1) 0 >>= fun Y => pyGet onesState.X.shape (-1) >>= fun n2 => Y.reshapeRows n2)
      = unfold onesState.X ((2 : ℕ) : Int) := rfl
  rw [hu2, unfold_eq onesState.X (k := 2) rfl (by decide)] at eU
  obtain rfl := Except.ok.inj eU
  obtain ⟨hMs, hMa⟩ := hM.entry (m := 1) (k := 3) (n := 1) rfl rfl
  refine ext_mat hMs rfl fun i hi j hj => ?_
  obtain rfl : i = 0 := by omega
  obtain rfl : j = 0 := by omega
  rw [get_full (by simp)]
  have := ones_dot (hMa 0 (by norm_num) 0 (by norm_num)) (fun l hl => by
    have hl' : l < (onesState.X.shape.eraseIdx 2).prod := by
      have : (onesState.X.shape.eraseIdx 2).prod = 3 := rfl
      omega
    rw [get_ofMat (show 0 < onesState.X.shape.getD 2 0 by decide) hl']
    have hv := (unravel_valid hl').insertIdx (n := 2) (i := 0) (m := 1) (by decide) (by norm_num)
    exact get_full hv) (fun l hl => by rw [get_full (by simpa using hl)]) (by norm_num)
  simpa using this

theorem ones_cached : onesState.FlCached dbl := by
  have hr := roundBits_rounds (p := 53) (by norm_num)
  refine ⟨?_, fun m hm => ?_⟩
  · obtain ⟨v, hv⟩ := FlNorm.exists dbl onesState.X
    have := ones_norm hv rfl fun idx hidx => get_full hidx
    rw [this] at hv
    exact hv
  · cases hm
    obtain ⟨M, hM⟩ := FlMttkrp.exists (R := 1) (k := 2) hr ones_sized.wf.factors (by decide) (by decide) (by decide)
    obtain rfl := ones_mttkrp hM
    exact ⟨by decide, _, rfl, hM⟩

theorem ones_inner {v : ℝ} (h : FlInner dbl (full [1] 1) (full [1, 1] 1) (full [1, 1] 3) v) : v = 3 := by
  obtain ⟨M, cs, p, e1, e2, e3, e4, e5⟩ := h
  rw [zipB_mat_mat (m := 1) (n := 1) _ rfl rfl] at e1
  obtain rfl := Except.ok.inj e1
  have hc := e3 0 (by simp)
  have hc : cs.get [0] = 3 := by
    have := FlSum.int hc (fun _ => 3) (fun i hi => by
      obtain rfl : i = 0 := by simpa using hi
      rw [get_ofMat (by norm_num) (by norm_num), get_full (by simp), get_full (by simp), flMul, one_mul, dbl_three]
      norm_num) (by simp)
    simpa using this
  have e2 : cs.shape = [1] := e2
  obtain ⟨p', ep, hps, hpg⟩ := zipB_sub_shape (A := full [1] 1) (flMul dbl) e2.symm
  rw [ep] at e4
  obtain rfl := Except.ok.inj e4
  have hps : p'.shape = [1] := hps
  rw [hps] at e5
  have := FlSum.int e5 (fun _ => 3) (fun i hi => by
    obtain rfl : i = 0 := by simpa using hi
    have hg : p'.flat 0 = p'.get [0] := by rw [NDArray.get, hps]; simp [ravel]
    rw [hg, hpg [0] (by simp), get_full (by simp), hc, flMul, one_mul, dbl_three]
    norm_num) (by simp)
  simpa using this

/-- **C134, refuted**: in double precision the error reported for an exact decomposition can be negative, whatever the order of
summation. The tensor consists of three ones. -/
theorem C134_negative : onesState.Sized 1 ∧ onesState.FlCached (roundBits 53) ∧ onesState.trueSSE 1 = 0 ∧
    (∃ v, FlSSE (roundBits 53) onesState v) ∧ ∀ v, FlSSE (roundBits 53) onesState v → v = -(1 / 2 ^ 50) := by
  have hr := roundBits_rounds (p := 53) (by norm_num)
  refine ⟨ones_sized, ones_cached, ?_, ?_, ?_⟩
  · rw [CPState.trueSSE, sqErr]
    refine (sumIdx_congr fun idx hidx => ?_).trans (sumIdx_zero _)
    obtain ⟨i, is, rfl, hi, his⟩ := valid_cons_iff.1 (show Valid [3, 1, 1] idx from hidx)
    obtain ⟨j, js, rfl, hj, hjs⟩ := valid_cons_iff.1 his
    obtain ⟨k, ks, rfl, hk, hks⟩ := valid_cons_iff.1 hjs
    simp at hks; subst hks
    obtain rfl : j = 0 := by omega
    obtain rfl : k = 0 := by omega
    have h1 : onesState.X.get [i, 0, 0] = 1 := get_full hidx
    have h2 : cpEntry (fun r => onesState.dec.weights.get [r]) onesState.dec.factorMatrices 1 [i, 0, 0] = 1 := by
      simp only [cpEntry, Finset.sum_range_one, onesState, rankOne]
      rw [get_full (by simp), get_full (by simp [hi]), get_full (by simp)]; norm_num
    rw [h1, h2]; norm_num
  · obtain ⟨Y, hY⟩ := FlConstruct.exists (rnd := dbl) hr ones_sized.wf ones_sized.order
    obtain ⟨yn, hyn⟩ := FlNorm.exists dbl Y
    obtain ⟨ip, hip⟩ := FlInner.exists dbl (w := full [1] 1) (F := full [1, 1] 1) (c := full [1, 1] 3) (m := 1) (R := 1) rfl rfl rfl
    exact ⟨_, Y, yn, _, _, ip, hY, hyn, rfl, rfl, hip, rfl⟩
  · rintro v ⟨Y, yn, F, c, ip, hY, hyn, hF, hc, hip, rfl⟩
    obtain ⟨hYs, hY1⟩ := ones_construct hY
    obtain rfl := ones_norm hyn hYs (by rw [hYs]; exact hY1)
    obtain rfl : full [1, 1] 1 = F := Except.ok.inj hF
    obtain rfl : full [1, 1] 3 = c := Option.some.inj hc
    obtain rfl := ones_inner hip
    have h6 : dbl (2 * 3) = 6 := by
      have := dbl_int (z := 6) (by norm_num)
      norm_num at this ⊢
      exact this
    have hx : onesState.XNorm = 7800463371553962 / 2 ^ 52 := dbl_sqrt3
    rw [hx, dbl_sqrt3, dbl_sq, h6, dbl_final]

/-- **C134, refuted**: and more than all of the variance is reported as explained. -/
theorem C134_explained_above_one : (∃ e, FlExplained (roundBits 53) onesState e) ∧
    ∀ e, FlExplained (roundBits 53) onesState e → e = 1 + 1 / 2 ^ 52 := by
  have hr := roundBits_rounds (p := 53) (by norm_num)
  obtain ⟨-, -, -, ⟨v, hv⟩, h⟩ := C134_negative
  refine ⟨⟨_, v, hv, rfl⟩, ?_⟩
  rintro e ⟨v, hv, rfl⟩
  obtain rfl := h v hv
  have hx : onesState.XNorm = 7800463371553962 / 2 ^ 52 := dbl_sqrt3
  rw [hx, dbl_sq]
  have hq := hr.err (-(1 / 2 ^ 50 : ℝ) / (3 - 1 / 2 ^ 51))
  set d := dbl (-(1 / 2 ^ 50 : ℝ) / (3 - 1 / 2 ^ 51)) with hd
  rw [abs_of_neg (a := -(1 / 2 ^ 50 : ℝ) / (3 - 1 / 2 ^ 51)) (by norm_num), abs_le] at hq
  obtain ⟨h1, h2⟩ := hq
  have b1 : d < -(5 / 4 / 2 ^ 52) := by
    refine lt_of_le_of_lt (sub_le_iff_le_add.1 h2) ?_
    norm_num
  have b2 : -(11 / 8 / 2 ^ 52) < d := by
    refine lt_of_lt_of_le ?_ (neg_le_sub_iff_le_add.1 h1 |> fun h => sub_le_iff_le_add.2 h)
    norm_num
  have e1 : ((0 : ℤ) - (((53 : ℕ) : ℤ) - 1)) = -52 := by norm_num
  have e2 : (2 : ℝ) ^ (52 : ℤ) = 2 ^ 52 := by norm_cast
  have hp : 0 ≤ 1 - d := by norm_num at b1; linarith
  rw [roundBits_eq (k := 0) (z := 2 ^ 52 + 1)]
  · rw [e1, zpow_neg, e2]; norm_num
  · rw [abs_of_nonneg hp]; norm_num at b1 ⊢; linarith
  · rw [abs_of_nonneg hp]; norm_num at b2 ⊢; linarith
  · rw [e1, zpow_neg, div_inv_eq_mul, e2, abs_lt]
    push_cast
    norm_num at b1 b2 ⊢
    constructor <;> linarith

/-- **C134, refuted**: and the root mean squared error is not a number. -/
theorem C134_rmse_nan : (∃ w, FlRMSE (roundBits 53) onesState w) ∧ ∀ w, FlRMSE (roundBits 53) onesState w → w = .nan := by
  have hr := roundBits_rounds (p := 53) (by norm_num)
  obtain ⟨-, -, -, ⟨v, hv⟩, h⟩ := C134_negative
  refine ⟨⟨_, v, hv, rfl⟩, ?_⟩
  rintro w ⟨v, hv, rfl⟩
  obtain rfl := h v hv
  have e : FV.div (-(1 / 2 ^ 50)) (onesState.X.shape.prod : ℕ) = .fin (-(1 / 2 ^ 50) / 3) := by
    have : ((onesState.X.shape.prod : ℕ) : ℝ) = 3 := by simp [onesState]
    rw [this, FV.div, if_pos (by norm_num)]
  rw [e, FV.round]
  have hn : dbl (-(1 / 2 ^ 50) / 3) < 0 := by
    have h1 := (abs_le.1 (hr.err (-(1 / 2 ^ 50 : ℝ) / 3))).2
    rw [abs_of_neg (by norm_num)] at h1
    norm_num at h1 ⊢
    linarith
  rw [FV.sqrt, if_neg (not_le.2 hn), FV.round]

end
end TK
