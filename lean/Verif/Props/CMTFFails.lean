import Verif.Props.CMTFNorm

/-!
# Coupled matrix and tensor factorisation: what fails (C57, C58, C59, C67)
-/

namespace TK
open NDArray

noncomputable section

theorem sqErr_one {X A B : NDArray ℝ} {w : ℕ → ℝ} (hX : X.shape = [1, 1]) :
    sqErr X w [A, B] 1 = (X.get [0, 0] - w 0 * (A.get [0, 0] * B.get [0, 0])) ^ 2 := by
  simp [sqErr, hX, sumIdx_cons, sumIdx_nil, cpEntry, rankOne]

theorem matErr_one {Y U V : NDArray ℝ} (hY : Y.shape = [1, 1]) :
    matErr Y U V 1 = (Y.get [0, 0] - U.get [0, 0] * V.get [0, 0]) ^ 2 := by
  simp [matErr, hY]

theorem matErr_one1 (y u v : ℝ) : matErr (one1 y) (one1 u) (one1 v) 1 = (y - u * v) ^ 2 := by
  rw [matErr_one rfl, get_one1, get_one1, get_one1]

theorem matErr_nonneg (Y U V : NDArray ℝ) (R : ℕ) : 0 ≤ matErr Y U V R :=
  Finset.sum_nonneg fun _ _ => Finset.sum_nonneg fun _ _ => sq_nonneg _

/-- `2 × 1` matrices. -/
def col2 (x y : ℝ) : NDArray ℝ := ofMat 2 1 fun i _ => if i = 0 then x else y

@[simp] theorem col2_zero (x y : ℝ) : (col2 x y).get [0, 0] = x := by
  rw [col2, get_ofMat (by norm_num) (by norm_num), if_pos rfl]
@[simp] theorem col2_one (x y : ℝ) : (col2 x y).get [1, 0] = y := by
  rw [col2, get_ofMat (by norm_num) (by norm_num), if_neg (by norm_num)]

theorem sqErr_two {X A B : NDArray ℝ} {w : ℕ → ℝ} (hX : X.shape = [2, 1]) :
    sqErr X w [A, B] 1 = (X.get [0, 0] - w 0 * (A.get [0, 0] * B.get [0, 0])) ^ 2
      + (X.get [1, 0] - w 0 * (A.get [1, 0] * B.get [0, 0])) ^ 2 := by
  simp [sqErr, hX, sumIdx_cons, sumIdx_nil, cpEntry, rankOne, Finset.sum_range_succ]

theorem matErr_two {Y U V : NDArray ℝ} (hY : Y.shape = [2, 1]) :
    matErr Y U V 1 = (Y.get [0, 0] - U.get [0, 0] * V.get [0, 0]) ^ 2 + (Y.get [1, 0] - U.get [1, 0] * V.get [0, 0]) ^ 2 := by
  simp [matErr, hY, Finset.sum_range_succ]

/-! ## C67 -/

/-- **C67, refuted** for `CMTF_ALS`, a witness: `X = [0]`, rank 1, all factors zero and one coupled matrix `[1 1]` with two
columns. The mean of the three squared errors is `2/3`, `MSE` is 1. -/
theorem C67_cmtf_fails : ∃ s : CMTFState, s.Sized 1 [0] [2] ∧ CMTF.sse s = .ok 2 ∧ CMTF.mse s = .ok (.fin 1) := by
  have h : (cmtfPair (one1 0) (one1 0) (one1 0) (full [1] 1) 1 [ofMat 1 2 fun _ _ => 1] [ofMat 2 1 fun _ _ => 0] [0]).Sized 1
      [0] [2] := cmtfPair_sized (n := 1) (k := 1) (by norm_num) (by norm_num) rfl rfl rfl rfl
    (.cons (isMode_nat (by norm_num)) .nil) rfl rfl (by simp) (by simp)
  have hl : (cmtfPair (one1 0) (one1 0) (one1 0) (full [1] 1) 1 [ofMat 1 2 fun _ _ => 1] [ofMat 2 1 fun _ _ => 0] [0]).trueLoss
      1 [0] = 2 := by
    rw [CMTFState.trueLoss, CPState.trueSSE]
    simp only [cmtfPair]
    rw [sqErr_one rfl]
    simp [coupledErr, coupledErrAt, matErr, Finset.sum_range_succ, get_ofMat]
    norm_num
  refine ⟨_, h, by rw [cmtf_sse_ok h, hl], ?_⟩
  rw [(C67_cmtf_partial h).1, hl]
  norm_num [coupledSize, cmtfPair]

/-! ## C57 -/

/-- An iteration on a matrix, with the update of the first factor given. -/
theorem cmtf_iteration_two {E : Ext} (hE : E.SVDOk) (hN : E.NNLSOk) {o : CPOpts} (hr : 0 < o.rank) {ms qs : List ℕ}
    {s : CMTFState} (h : s.Sized o.rank ms qs) (hc : s.Cfg o) (h2 : s.cp.X.shape.length = 2) {A B : NDArray ℝ}
    (hAB : s.cp.dec.factorMatrices = [A, B]) {c F : NDArray ℝ} (hF : F.shape = [s.cp.X.shape.getD 0 0, o.rank])
    (e0 : CMTF.updateFactor E o 0 s = .ok (s.upd 0 c F)) :
    ∃ s' G, CMTF.iteration E o s = .ok s' ∧ s'.Sized o.rank ms qs ∧ s.SameProblem s' ∧ s'.cp.dec.factorMatrices = [F, G] ∧
      (∀ i, ¬ FirstOf s.modes i → s'.V.getD i noArr = s.V.getD i noArr) := by
  have hs0 : s.Same (s.upd 0 c F) := ⟨rfl, rfl, rfl, rfl, rfl, rfl, rfl, rfl, rfl⟩
  have h0 := h.upd (c := c) hF
  obtain ⟨on, ridge, hmc⟩ := (hc.same hs0).conf 1 (by show 1 < s.cp.X.shape.length; omega)
  obtain ⟨c1, G, hG, e1⟩ := cmtf_updateFactor_total hE hN h0 hr (by show 1 < s.cp.X.shape.length; omega) hmc (by simp)
  have hs1 : s.Same ((s.upd 0 c F).upd 1 c1 G) := ⟨rfl, rfl, rfl, rfl, rfl, rfl, rfl, rfl, rfl⟩
  have h1 := h0.upd (c := c1) hG
  obtain ⟨V', e2, h3, -, hk⟩ := cmtf_uncoupled_ok hE h1 (hc.same hs1)
  refine ⟨CMTFState.withSSE { (s.upd 0 c F).upd 1 c1 G with V := V' }
    (CMTFState.trueLoss { (s.upd 0 c F).upd 1 c1 G with V := V' } o.rank ms), G, ?_, h3.withSSE _,
    ⟨rfl, rfl, rfl, rfl, rfl, rfl, rfl, rfl⟩, ?_, hk⟩
  · have em : CMTF.updateModes E o (List.range s.cp.X.shape.length) s = .ok ((s.upd 0 c F).upd 1 c1 G) := by
      rw [h2, show List.range 2 = [0, 1] from rfl, CMTF.updateModes, List.foldlM_cons, cmtf_flag hc (by omega), bind_ok]
      simp only [Bool.false_eq_true, if_false]
      rw [e0, bind_ok, List.foldlM_cons, cmtf_flag (hc.same hs0) (by show 1 < s.cp.X.shape.length; omega), bind_ok]
      simp only [Bool.false_eq_true, if_false]
      rw [e1, bind_ok]; rfl
    rw [CMTF.iteration, CMTF.updateFactors, em, bind_ok, e2, bind_ok, CMTF.updateConvergence, cmtf_sse_ok h3, bind_ok]; rfl
  · show (s.cp.dec.factorMatrices.set 0 F).set 1 G = _
    rw [hAB]; rfl

/-- **C57, refuted** for several matrices coupled to one mode: `X = [1]`, rank 1, factors `1` and `1`, two coupled matrices `[0]`
and `[10]` with right factors `1` and `10`. The SSE is 1. An iteration sets the first factor to `1/2`, because it only sees the
first coupled matrix, and the right factor of the second one stays 10, so the SSE becomes at least 25. -/
theorem C57_shared_mode_fails : ∃ s : CMTFState, ∃ o : CPOpts, s.Sized o.rank [0, 0] [1, 1] ∧ s.Cfg o ∧ s.Free o [0, 0] ∧
    (∀ r < o.rank, s.cp.dec.weights.get [r] = 1) ∧ CMTF.sse s = .ok 1 ∧
    ∀ E : Ext, E.SVDOk → E.NNLSOk → ∃ s' e, CMTF.iteration E o s = .ok s' ∧ CMTF.sse s' = .ok e ∧ 25 ≤ e := by
  set s := cmtfPair (one1 1) (one1 1) (one1 1) (full [1] 1) 1 [one1 0, one1 10] [one1 1, one1 10] [0, 0] with hs
  have h : s.Sized 1 [0, 0] [1, 1] := by
    refine cmtfPair_sized (n := 1) (k := 1) (by norm_num) (by norm_num) rfl rfl rfl rfl
      (.cons (isMode_nat (by norm_num)) (.cons (isMode_nat (by norm_num)) .nil)) rfl rfl ?_ ?_
    all_goals
      intro i hi
      match i with
      | 0 => rfl
      | 1 => rfl
      | _ + 2 => simp at hi
  set o : CPOpts := ⟨1, 0, 0, none⟩ with ho
  have hc : s.Cfg o := cmtfPair_cfg (n := 1) (k := 1) rfl rfl
  have hf : s.Free o [0, 0] := ⟨rfl, cmtfPair_conf (n := 1) (k := 1) rfl rfl⟩
  have hw : ∀ r < 1, s.cp.dec.weights.get [r] = 1 := fun r hr => get_full ⟨hr, trivial⟩
  refine ⟨s, o, h, hc, hf, hw, ?_, fun E hE hN => ?_⟩
  · rw [cmtf_sse_ok h, CMTFState.trueLoss, CPState.trueSSE]
    simp only [hs, cmtfPair]
    rw [sqErr_one rfl, show (full [1] (1 : ℝ)).get [0] = 1 from hw 0 (by norm_num)]
    simp [coupledErr, coupledErrAt, Finset.sum_range_succ, matErr_one1]
  · obtain ⟨c, F, hF, e0, hopt⟩ := cmtf_update_core hE h hf.plain (m := 0) (by simp [hs, cmtfPair]) (hf.conf 0 (by simp [hs, cmtfPair]))
    have hF' : F.shape = [1, 1] := hF
    have hloss : ∀ c' Y : NDArray ℝ, (s.upd 0 c' Y).fitLoss 1 [0, 0]
        = (1 - Y.get [0, 0]) ^ 2 + (Y.get [0, 0]) ^ 2 := by
      intro c' Y
      have hfil : (Finset.range [0, 0].length).filter (IsFirst [0, 0]) = {0} := by decide
      rw [CMTFState.fitLoss, firstErr, hfil, Finset.sum_singleton, coupledErrAt]
      simp only [hs, cmtfPair, CMTFState.upd, List.set_cons_zero]
      rw [sqErr_one rfl, matErr_one rfl]
      simp
    have hh := hopt (one1 (1 / 2)) rfl
    rw [hloss, hloss, get_one1] at hh
    have ha : F.get [0, 0] = 1 / 2 := by nlinarith [sq_nonneg (F.get [0, 0] - 1 / 2)]
    obtain ⟨s', G, e1, h1, hsp, hfs, hk⟩ := cmtf_iteration_two hE hN (by norm_num [ho]) h hc rfl rfl hF e0
    refine ⟨s', _, e1, cmtf_sse_ok h1, ?_⟩
    have hV : s'.V.getD 1 noArr = one1 10 := by
      rw [hk 1 (fun hx => hx.2 0 (by norm_num) rfl)]; rfl
    have h25 : coupledErrAt s'.cp.dec.factorMatrices s'.Ys s'.V [0, 0] 1 1 = 25 := by
      rw [coupledErrAt, hV, hsp.Ys, hfs, matErr_one rfl]
      simp [hs, cmtfPair, ha]
      norm_num
    have hX : 0 ≤ s'.cp.trueSSE 1 := sumIdx_nonneg fun _ _ => sq_nonneg _
    have h0 : 0 ≤ coupledErrAt s'.cp.dec.factorMatrices s'.Ys s'.V [0, 0] 1 0 := matErr_nonneg _ _ _ _
    show 25 ≤ s'.trueLoss 1 [0, 0]
    rw [CMTFState.trueLoss, coupledErr]
    simp only [List.length_cons, List.length_nil, Finset.sum_range_succ, Finset.sum_range_zero]
    linarith

/-- **C57, refuted** for a coupling mode given as a negative number: `X = [1; 0]`, rank 1, factors `[0; 1]` and `1`, a coupled
matrix `[0; 10]` with right factor 10, coupled to mode `-2`. The SSE is 2. An iteration does not see the coupled matrix when it
updates the first factor, which becomes `[1; 0]`; then no right factor makes the coupled error smaller than 100. -/
theorem C57_negative_mode_fails : ∃ s : CMTFState, ∃ o : CPOpts, s.modes = [-2] ∧ s.Sized o.rank [0] [1] ∧ s.Cfg o ∧
    (∀ m < s.cp.X.shape.length, s.cp.ModeConfig o m false false none) ∧
    (∀ r < o.rank, s.cp.dec.weights.get [r] = 1) ∧ CMTF.sse s = .ok 2 ∧
    ∀ E : Ext, E.SVDOk → E.NNLSOk → ∃ s' e, CMTF.iteration E o s = .ok s' ∧ CMTF.sse s' = .ok e ∧ 100 ≤ e := by
  set s := cmtfPair (col2 1 0) (col2 0 1) (one1 1) (full [1] 1) 1 [col2 0 10] [one1 10] [-2] with hs
  have h : s.Sized 1 [0] [1] := by
    refine cmtfPair_sized (n := 2) (k := 1) (by norm_num) (by norm_num) rfl rfl rfl rfl
      (.cons ⟨by norm_num, Or.inr (by norm_num)⟩ .nil) rfl rfl ?_ ?_
    all_goals
      intro i hi
      match i with
      | 0 => rfl
      | _ + 1 => simp at hi
  set o : CPOpts := ⟨1, 0, 0, none⟩ with ho
  have hc : s.Cfg o := cmtfPair_cfg (n := 2) (k := 1) rfl rfl
  have hcf := cmtfPair_conf (X := col2 1 0) (A := col2 0 1) (B := one1 1) (w := full [1] 1) (n := 2) (k := 1) (R := 1)
    (Ys := [col2 0 10]) (V := [one1 10]) (modes := [-2]) (o := o) rfl rfl
  have hw : ∀ r < 1, s.cp.dec.weights.get [r] = 1 := fun r hr => get_full ⟨hr, trivial⟩
  refine ⟨s, o, rfl, h, hc, hcf, hw, ?_, fun E hE hN => ?_⟩
  · rw [cmtf_sse_ok h, CMTFState.trueLoss, CPState.trueSSE]
    simp only [hs, cmtfPair]
    rw [sqErr_two rfl, show (full [1] (1 : ℝ)).get [0] = 1 from hw 0 (by norm_num)]
    simp [coupledErr, coupledErrAt, matErr_two (show (col2 0 10).shape = [2, 1] from rfl)]
    norm_num
  · obtain ⟨F, hF, e, hopt⟩ := C34_update_core hE (o := o) (s := s.cp) (m := 0) h.cp (by simp [hs, cmtfPair, col2]) hw
      (hcf 0 (by simp [cmtfPair, col2]))
    have e0 : CMTF.updateFactor E o 0 s = .ok (s.upd 0 (mttkrpMat s.cp.X s.cp.dec.factorMatrices 0 o.rank) F) := by
      rw [updateFactor_uncoupled rfl, e]; rfl
    have hloss : ∀ Y : NDArray ℝ, (s.cp.updated 0 1 Y).trueSSE 1 = (1 - Y.get [0, 0]) ^ 2 + (Y.get [1, 0]) ^ 2 := by
      intro Y
      rw [CPState.trueSSE]
      simp only [CPState.updated, hs, cmtfPair, List.set_cons_zero]
      rw [sqErr_two rfl, show (full [1] (1 : ℝ)).get [0] = 1 from hw 0 (by norm_num)]
      simp
    have hh := hopt (col2 1 0) rfl
    rw [hloss, hloss, col2_zero, col2_one] at hh
    have ha : F.get [1, 0] = 0 := by
      have : F.get [1, 0] ^ 2 = 0 := le_antisymm (by nlinarith [sq_nonneg (1 - F.get [0, 0])]) (sq_nonneg _)
      exact pow_eq_zero_iff (by norm_num) |>.1 this
    obtain ⟨s', G, e1, h1, hsp, hfs, -⟩ := cmtf_iteration_two hE hN (by norm_num [ho]) h hc rfl rfl hF e0
    refine ⟨s', _, e1, cmtf_sse_ok h1, ?_⟩
    have h100 : 100 ≤ coupledErrAt s'.cp.dec.factorMatrices s'.Ys s'.V [0] 1 0 := by
      rw [coupledErrAt, hsp.Ys, hfs, matErr_two rfl]
      simp [hs, cmtfPair, ha]
      nlinarith [sq_nonneg (F.get [0, 0] * (s'.V[0]?.getD noArr).get [0, 0])]
    have hX : 0 ≤ s'.cp.trueSSE 1 := sumIdx_nonneg fun _ _ => sq_nonneg _
    show 100 ≤ s'.trueLoss 1 [0]
    rw [CMTFState.trueLoss, coupledErr]
    simp only [List.length_cons, List.length_nil, Finset.sum_range_succ, Finset.sum_range_zero]
    linarith

/-- The hypotheses of `C57_partial` hold for a `1 × 1` problem with one coupled matrix on each mode. -/
example : ∃ s : CMTFState, ∃ o : CPOpts, 0 < o.rank ∧ s.Sized o.rank [0, 1] [1, 1] ∧ s.Cfg o ∧ s.Free o [0, 1] ∧
    (∀ r < o.rank, s.cp.dec.weights.get [r] = 1) ∧ s.trueLoss o.rank [0, 1] = 6 := by
  refine ⟨cmtfPair (one1 2) (one1 1) (one1 1) (full [1] 1) 1 [one1 0, one1 3] [one1 1, one1 1] [0, 1], ⟨1, 0, 0, none⟩,
    by norm_num, ?_, cmtfPair_cfg (n := 1) (k := 1) rfl rfl, ⟨rfl, cmtfPair_conf (n := 1) (k := 1) rfl rfl⟩,
    fun r hr => get_full ⟨hr, trivial⟩, ?_⟩
  · refine cmtfPair_sized (n := 1) (k := 1) (by norm_num) (by norm_num) rfl rfl rfl rfl
      (.cons (isMode_nat (by norm_num)) (.cons (isMode_nat (by norm_num)) .nil)) rfl rfl ?_ ?_
    all_goals
      intro i hi
      match i with
      | 0 => rfl
      | 1 => rfl
      | _ + 2 => simp at hi
  · have hw : (full [1] (1 : ℝ)).get [0] = 1 := get_full (show Valid [1] [0] from ⟨by norm_num, trivial⟩)
    rw [CMTFState.trueLoss, CPState.trueSSE]
    simp only [cmtfPair]
    rw [sqErr_one rfl, hw]
    simp [coupledErr, coupledErrAt, Finset.sum_range_succ, matErr_one1]
    norm_num

/-! ## C58 -/

/-- The same state with other data for matrix `i`. -/
def CMTFState.withData (s : CMTFState) (i : ℕ) (Y : NDArray ℝ) : CMTFState := { s with Ys := s.Ys.set i Y }

theorem pyGet_set_ne {l : List (NDArray ℝ)} {i k : ℕ} {Y : NDArray ℝ} (h : k ≠ i) :
    pyGet (l.set i Y) (k : Int) = pyGet l (k : Int) := by
  unfold pyGet
  rw [List.length_set]
  cases hn : normIdx (k : Int) l.length with
  | none => rfl
  | some j =>
    have hj : j = k := by
      have := normIdx_some_iff.1 hn
      omega
    subst hj
    simp only
    rw [List.getElem?_set_ne h.symm]

theorem pyGet_set_ok {l : List (NDArray ℝ)} {i : ℕ} {k : Int} {Y : NDArray ℝ} :
    (∃ a, pyGet l k = .ok a ∧ ∃ b, pyGet (l.set i Y) k = .ok b) ∨ ∃ e, pyGet l k = .error e ∧ pyGet (l.set i Y) k = .error e := by
  unfold pyGet
  rw [List.length_set]
  cases hn : normIdx k l.length with
  | none => exact Or.inr ⟨_, rfl, rfl⟩
  | some j =>
    have hj : j < l.length := (normIdx_some_iff.1 hn).1
    left
    simp [hj]

theorem mapM_set {l : List (NDArray ℝ)} {i : ℕ} {Y : NDArray ℝ} : ∀ is : List ℕ,
    (∃ a, (is.mapM fun (k : ℕ) => pyGet l k) = .ok a ∧ ∃ b, (is.mapM fun (k : ℕ) => pyGet (l.set i Y) k) = .ok b) ∨
    ∃ e, (is.mapM fun (k : ℕ) => pyGet l k) = .error e ∧ (is.mapM fun (k : ℕ) => pyGet (l.set i Y) k) = .error e
  | [] => Or.inl ⟨[], rfl, [], rfl⟩
  | k :: is => by
    rw [List.mapM_cons, List.mapM_cons]
    rcases pyGet_set_ok (l := l) (i := i) (k := k) (Y := Y) with ⟨a, ea, b, eb⟩ | ⟨e, ea, eb⟩
    · rw [ea, eb, bind_ok, bind_ok]
      rcases mapM_set (l := l) (i := i) (Y := Y) is with ⟨a', ea', b', eb'⟩ | ⟨e, ea', eb'⟩
      · rw [ea', eb']; exact Or.inl ⟨_, rfl, _, rfl⟩
      · rw [ea', eb']; exact Or.inr ⟨_, rfl, rfl⟩
    · rw [ea, eb]; exact Or.inr ⟨_, rfl, rfl⟩

/-- The first element of the list of data matrices of a mode does not depend on matrices that are not the first. -/
theorem mapM_first {l : List (NDArray ℝ)} {i k : ℕ} {is : List ℕ} {Y : NDArray ℝ} (h : k ≠ i) :
    (do let a ← (k :: is).mapM fun (k : ℕ) => pyGet (l.set i Y) k; pyGet a 0) =
    (do let a ← (k :: is).mapM fun (k : ℕ) => pyGet l k; pyGet a 0) := by
  rw [List.mapM_cons, List.mapM_cons, pyGet_set_ne h]
  cases pyGet l (k : Int) with
  | error e => rfl
  | ok x =>
    simp only [bind_ok]
    rcases mapM_set (l := l) (i := i) (Y := Y) is with ⟨a', ea', b', eb'⟩ | ⟨e, ea', eb'⟩
    · rw [ea', eb']
      show pyGet (x :: b') 0 = pyGet (x :: a') 0
      rw [pyGet_zero_cons, pyGet_zero_cons]
    · rw [ea', eb']

theorem updateFactor_withData {E : Ext} {o : CPOpts} {s : CMTFState} {m i : ℕ} {Y : NDArray ℝ}
    (hmap : s.map = CMTF.mapFrom 0 s.modes []) (hi : ¬ FirstOf s.modes i) :
    CMTF.updateFactor E o m (s.withData i Y) = (CMTF.updateFactor E o m s).map fun t => t.withData i Y := by
  have hrhs : CMTF.alsRhs m (s.withData i Y) = CMTF.alsRhs m s := by
    unfold CMTF.alsRhs
    show (match CMTF.lookup m s.map with | some l => _ | none => _) = _
    cases hl : CMTF.lookup m s.map with
    | none => rfl
    | some l =>
      have hD := mapOk s.modes
      rw [← hmap] at hD
      obtain ⟨k, t, rfl, hk, hkf, hall⟩ := hD.head (lookup_mem hl)
      have hki : k ≠ i := by
        rintro rfl
        exact hi ⟨(hall k (by simp)).1, fun j hj => by rw [hk]; exact hkf j hj⟩
      simp only
      have := mapM_first (l := s.Ys) (i := i) (k := k) (is := t) (Y := Y) hki
      cases hu : unfold s.cp.X m with
      | error e =>
        show (unfold s.cp.X m >>= _) = _
        rw [hu]; rfl
      | ok M =>
        show (unfold s.cp.X m >>= fun M => ((k :: t).mapM fun (k : ℕ) => pyGet (s.Ys.set i Y) k) >>= fun a => pyGet a 0 >>= fun Y => hcat M Y) = _
        rw [hu, bind_ok, bind_ok, ← bind_assoc, ← bind_assoc]
        exact congrArg (· >>= fun Y => hcat M Y) this
  unfold CMTF.updateFactor
  rw [hrhs]
  show (CMTF.alsLhs o.rank m s >>= _) = _
  rcases CMTF.alsLhs o.rank m s with _ | lhs
  · rfl
  rcases CMTF.alsRhs m s with _ | rhs
  · rfl
  show (CP.getSolve E o s.cp m >>= _) = Except.map _ (CP.getSolve E o s.cp m >>= _)
  rcases CP.getSolve E o s.cp m with _ | solve
  · rfl
  simp only [bind_ok]
  rcases solve lhs rhs with _ | new
  · rfl
  simp only [bind_ok]
  show (pyGet s.cp.dec.factorMatrices m >>= _) = _
  rcases pyGet s.cp.dec.factorMatrices (m : Int) with _ | F
  · rfl
  simp only [bind_ok]
  rcases assignAll F new with _ | F'
  · rfl
  rfl

theorem updateFactor_keeps {E : Ext} {o : CPOpts} {s t : CMTFState} {m : ℕ} (e : CMTF.updateFactor E o m s = .ok t) :
    t.map = s.map ∧ t.modes = s.modes ∧ t.cp.nonNeg = s.cp.nonNeg := by
  unfold CMTF.updateFactor at e
  obtain ⟨_, -, e⟩ := bind_eq_ok.1 e
  obtain ⟨_, -, e⟩ := bind_eq_ok.1 e
  obtain ⟨_, -, e⟩ := bind_eq_ok.1 e
  obtain ⟨_, -, e⟩ := bind_eq_ok.1 e
  obtain ⟨_, -, e⟩ := bind_eq_ok.1 e
  obtain ⟨_, -, e⟩ := bind_eq_ok.1 e
  rw [pure_eq_ok] at e
  subst e
  exact ⟨rfl, rfl, rfl⟩

theorem updateModes_withData {E : Ext} {o : CPOpts} {i : ℕ} {Y : NDArray ℝ} : ∀ (modes : List ℕ) {s : CMTFState},
    s.map = CMTF.mapFrom 0 s.modes [] → ¬ FirstOf s.modes i →
    CMTF.updateModes E o modes (s.withData i Y) = (CMTF.updateModes E o modes s).map fun t => t.withData i Y := by
  intro modes
  induction modes with
  | nil => intro s _ _; rfl
  | cons m modes ih =>
    intro s hmap hi
    unfold CMTF.updateModes at ih ⊢
    rw [List.foldlM_cons, List.foldlM_cons]
    show (CMTF.flagAt s.cp.nonNeg m >>= _) >>= _ = _
    cases hb : CMTF.flagAt s.cp.nonNeg m with
    | error e => rfl
    | ok b =>
      rw [bind_ok, bind_ok]
      cases b with
      | true => rfl
      | false =>
        simp only [Bool.false_eq_true, if_false]
        rw [updateFactor_withData hmap hi]
        cases ht : CMTF.updateFactor E o m s with
        | error e => rfl
        | ok t =>
          obtain ⟨h1, h2, -⟩ := updateFactor_keeps ht
          exact ih (s := t) (by rw [h1, h2]; exact hmap) (by rw [h2]; exact hi)

theorem updateModes_keeps {E : Ext} {o : CPOpts} : ∀ (modes : List ℕ) {s t : CMTFState}, CMTF.updateModes E o modes s = .ok t →
    t.map = s.map ∧ t.modes = s.modes ∧ t.cp.nonNeg = s.cp.nonNeg := by
  intro modes
  induction modes with
  | nil =>
    intro s t e
    obtain rfl : s = t := by injection e
    exact ⟨rfl, rfl, rfl⟩
  | cons m modes ih =>
    intro s t e
    unfold CMTF.updateModes at ih e
    rw [List.foldlM_cons] at e
    obtain ⟨u, e1, e⟩ := bind_eq_ok.1 e
    obtain ⟨b, -, e1⟩ := bind_eq_ok.1 e1
    cases b with
    | true => simp at e1
    | false =>
      simp only [Bool.false_eq_true, if_false] at e1
      obtain ⟨a1, a2, a3⟩ := updateFactor_keeps e1
      obtain ⟨b1, b2, b3⟩ := ih e
      exact ⟨b1.trans a1, b2.trans a2, b3.trans a3⟩

theorem updateUncoupled_withData {E : Ext} {i k : ℕ} {Y : NDArray ℝ} {m : Int} {t : List ℕ} {s : CMTFState} (h : k ≠ i) :
    CMTF.updateUncoupled E (s.withData i Y) (m, k :: t)
      = (CMTF.updateUncoupled E s (m, k :: t)).map fun t => t.withData i Y := by
  unfold CMTF.updateUncoupled
  simp only [CMTFState.withData, pyGet_zero_cons, bind_ok, pyGet_set_ne h]
  rcases pyGet s.cp.dec.factorMatrices m with _ | U
  · rfl
  simp only [bind_ok]
  rcases pyGet s.Ys (k : Int) with _ | Y'
  · rfl
  simp only [bind_ok]
  rcases CMTF.flagAt s.cp.nonNeg m with _ | nn
  · rfl
  simp only [bind_ok]
  rcases (if nn = true then nonNegativeRightsolve E U.T Y'.T else rightsolve E U.T Y'.T) with _ | new
  · rfl
  simp only [bind_ok]
  rcases pyGet s.V (k : Int) with _ | V
  · rfl
  simp only [bind_ok]
  rcases assignAll V new with _ | V'
  · rfl
  rfl

theorem uncoupled_withData {E : Ext} {i : ℕ} {Y : NDArray ℝ} : ∀ (D : List (Int × List ℕ)) {s : CMTFState},
    (∀ p ∈ D, ∃ k t, p.2 = k :: t ∧ k ≠ i) →
    D.foldlM (CMTF.updateUncoupled E) (s.withData i Y) = (D.foldlM (CMTF.updateUncoupled E) s).map fun t => t.withData i Y := by
  intro D
  induction D with
  | nil => intro s _; rfl
  | cons p D ih =>
    intro s h
    obtain ⟨m, l⟩ := p
    obtain ⟨k, t, e, hk⟩ := h (m, l) List.mem_cons_self
    obtain rfl : l = k :: t := e
    rw [List.foldlM_cons, List.foldlM_cons, updateUncoupled_withData hk]
    cases CMTF.updateUncoupled E s (m, k :: t) with
    | error e => rfl
    | ok u => exact ih (s := u) fun p hp => h p (List.mem_cons_of_mem _ hp)

/-- **C58, refuted**: a coupled matrix that is not the first one with its coupling mode takes no part in the fit. Whatever its
data are (even with a wrong size), a round of updates gives the same factor matrices and right factors, or the same exception. -/
theorem C58_data_ignored {E : Ext} {o : CPOpts} {s : CMTFState} {i : ℕ} (hmap : s.map = CMTF.mapFrom 0 s.modes [])
    (hi : ¬ FirstOf s.modes i) (Y : NDArray ℝ) :
    CMTF.updateFactors E o (s.withData i Y) = (CMTF.updateFactors E o s).map fun t => t.withData i Y := by
  unfold CMTF.updateFactors
  show (CMTF.updateModes E o (List.range s.cp.X.shape.length) (s.withData i Y) >>= _) = _
  rw [updateModes_withData _ hmap hi]
  cases ht : CMTF.updateModes E o (List.range s.cp.X.shape.length) s with
  | error e => rfl
  | ok t =>
    obtain ⟨h1, h2, -⟩ := updateModes_keeps _ ht
    show (t.map.foldlM (CMTF.updateUncoupled E) (t.withData i Y)) = _
    rw [uncoupled_withData]
    · rfl
    · rintro ⟨m, l⟩ hp
      have hD := mapOk s.modes
      rw [← hmap, ← h1] at hD
      obtain ⟨k, r, rfl, hk, hkf, hall⟩ := hD.head hp
      refine ⟨k, r, rfl, ?_⟩
      rintro rfl
      exact hi ⟨(hall k (by simp)).1, fun j hj => by rw [hk]; exact hkf j hj⟩

/-- The second of two matrices coupled to mode 0 is not the first one of its mode. -/
example : (0 : ℕ) < 1 ∧ ¬ FirstOf [0, 0] 1 := ⟨by norm_num, fun h => h.2 0 (by norm_num) rfl⟩

/-- `n` iterations. -/
def CMTF.iterate (E : Ext) (o : CPOpts) : ℕ → CMTFState → Py CMTFState
  | 0, s => .ok s
  | n + 1, s => do
    let s ← CMTF.iteration E o s
    CMTF.iterate E o n s

/-- **C58, what holds.** Any number of iterations can be performed; after each one, every matrix that is the first one with its
coupling mode has the best right factor for the current factor matrices, and every other matrix still has the right factor that
was drawn for it at the start. Missing: the right factors of the other matrices (`C58_fails`, `C58_data_ignored`). -/
theorem C58_partial {E : Ext} (hE : E.SVDOk) (hN : E.NNLSOk) {o : CPOpts} (hr : 0 < o.rank) {ms qs : List ℕ} : ∀ (n : ℕ)
    {s : CMTFState}, s.Sized o.rank ms qs → s.Cfg o →
    ∃ s', CMTF.iterate E o n s = .ok s' ∧ s'.Sized o.rank ms qs ∧ s'.Cfg o ∧ s.SameProblem s' ∧
      (0 < n → ∀ i, FirstOf s.modes i → ∀ W : NDArray ℝ,
        matErr (s.Ys.getD i noArr) (s'.cp.dec.factorMatrices.getD (ms.getD i 0) noArr) (s'.V.getD i noArr) o.rank
          ≤ matErr (s.Ys.getD i noArr) (s'.cp.dec.factorMatrices.getD (ms.getD i 0) noArr) W o.rank) ∧
      (∀ i, ¬ FirstOf s.modes i → s'.V.getD i noArr = s.V.getD i noArr) := by
  intro n
  induction n with
  | zero => intro s h hc; exact ⟨s, rfl, h, hc, .refl s, fun h => absurd h (lt_irrefl _), fun _ _ => rfl⟩
  | succ n ih =>
    intro s h hc
    obtain ⟨s1, e1, h1, hs, hc1, -, -, hb, hk, -⟩ := cmtf_iteration_ok hE hN hr h hc
    obtain ⟨s2, e2, h2, hc2, hs2, hb2, hk2⟩ := ih h1 hc1
    refine ⟨s2, by rw [CMTF.iterate, e1, bind_ok, e2], h2, hc2, hs.trans hs2, fun _ i hi => ?_, fun i hi => ?_⟩
    · rcases Nat.eq_zero_or_pos n with rfl | hn
      · obtain rfl : s1 = s2 := by simpa [CMTF.iterate] using e2
        exact hb i hi
      · have := hb2 hn i (by rw [hs.modes]; exact hi)
        rwa [hs.Ys] at this
    · rw [hk2 i (by rw [hs.modes]; exact hi), hk i hi]

/-- **C58, refuted**, a witness: `X = [1]`, rank 1 and two coupled matrices on mode 0, the second one `[5]` with right factor 0.
After any number of iterations this right factor is still 0 and the error of the second matrix is 25. -/
theorem C58_fails : ∃ s : CMTFState, ∃ o : CPOpts, s.Sized o.rank [0, 0] [1, 1] ∧ s.Cfg o ∧ s.Free o [0, 0] ∧
    ∀ E : Ext, E.SVDOk → E.NNLSOk → ∀ n, ∃ s', CMTF.iterate E o n s = .ok s' ∧ (s'.V.getD 1 noArr).get [0, 0] = 0 ∧
      coupledErrAt s'.cp.dec.factorMatrices s'.Ys s'.V [0, 0] o.rank 1 = 25 := by
  have h : (cmtfPair (one1 1) (one1 1) (one1 1) (full [1] 1) 1 [one1 1, one1 5] [one1 1, one1 0] [0, 0]).Sized 1 [0, 0] [1, 1] := by
    refine cmtfPair_sized (n := 1) (k := 1) (by norm_num) (by norm_num) rfl rfl rfl rfl
      (.cons (isMode_nat (by norm_num)) (.cons (isMode_nat (by norm_num)) .nil)) rfl rfl ?_ ?_
    all_goals
      intro i hi
      match i with
      | 0 => rfl
      | 1 => rfl
      | _ + 2 => simp at hi
  have hc : (cmtfPair (one1 1) (one1 1) (one1 1) (full [1] 1) 1 [one1 1, one1 5] [one1 1, one1 0] [0, 0]).Cfg ⟨1, 0, 0, none⟩ :=
    cmtfPair_cfg (n := 1) (k := 1) rfl rfl
  refine ⟨_, ⟨1, 0, 0, none⟩, h, hc, ⟨rfl, cmtfPair_conf (n := 1) (k := 1) rfl rfl⟩, fun E hE hN n => ?_⟩
  obtain ⟨s', e, h1, -, hs, -, hk⟩ := C58_partial hE hN (o := ⟨1, 0, 0, none⟩) (by norm_num) n h hc
  have hV : s'.V.getD 1 noArr = one1 0 := by
    rw [hk 1 (fun hx => hx.2 0 (by norm_num) rfl)]; rfl
  refine ⟨s', e, by rw [hV, get_one1], ?_⟩
  rw [coupledErrAt, hV, hs.Ys, matErr_one rfl, get_one1, mul_zero]
  simp [cmtfPair]
  norm_num

/-! ## C59 -/

/-- **C59, refuted**: if the non-negativity flag of some mode is set, a round of updates raises `AttributeError`, because
`_update_als_factor_non_negative` does not exist. -/
theorem C59_fails {E : Ext} (hE : E.SVDOk) (hN : E.NNLSOk) {o : CPOpts} (hr : 0 < o.rank) {ms qs : List ℕ} {s : CMTFState}
    (h : s.Sized o.rank ms qs) {l : List Bool} (hl : s.cp.nonNeg = some l) (hlen : l.length = s.cp.X.shape.length)
    (hc : ∀ m < s.cp.X.shape.length, l[m]? = some false → ∃ on ridge, s.cp.ModeConfig o m false on ridge)
    {m : ℕ} (hm : l[m]? = some true) :
    CMTF.updateFactors E o s = .error .attributeError ∧ CMTF.iteration E o s = .error .attributeError := by
  have key : ∀ (modes : List ℕ) (s : CMTFState), s.Sized o.rank ms qs → s.cp.nonNeg = some l →
      l.length = s.cp.X.shape.length →
      (∀ m < s.cp.X.shape.length, l[m]? = some false → ∃ on ridge, s.cp.ModeConfig o m false on ridge) →
      (∀ k ∈ modes, k < s.cp.X.shape.length) → m ∈ modes → CMTF.updateModes E o modes s = .error .attributeError := by
    intro modes
    induction modes with
    | nil => intro s _ _ _ _ _ hm; simp at hm
    | cons k modes ih =>
      intro s h hl hlen hc hk hmem
      have hk0 := hk k (by simp)
      obtain ⟨b, hb⟩ : ∃ b, l[k]? = some b := ⟨_, List.getElem?_eq_getElem (by omega)⟩
      unfold CMTF.updateModes at ih ⊢
      rw [List.foldlM_cons, hl]
      show ((pyGet l (k : Int)) >>= _) >>= _ = _
      rw [pyGet_of_getElem? hb, bind_ok]
      cases b with
      | true => rfl
      | false =>
        simp only [Bool.false_eq_true, if_false]
        obtain ⟨on, ridge, hmc⟩ := hc k hk0 hb
        obtain ⟨c, F, hF, e⟩ := cmtf_updateFactor_total hE hN h hr hk0 hmc (by simp)
        rw [e, bind_ok]
        refine ih _ (h.upd hF) hl hlen (fun j hj hjf => ?_) (fun j hj => hk j (by simp [hj])) ?_
        · obtain ⟨on, ridge, hmc⟩ := hc j hj hjf
          exact ⟨on, ridge, hmc.nonNeg, hmc.orth, hmc.ridge⟩
        · rcases List.mem_cons.1 hmem with rfl | hx
          · rw [hm] at hb; simp at hb
          · exact hx
  have hmd : m < s.cp.X.shape.length := by rw [← hlen]; exact (List.getElem?_eq_some_iff.1 hm).1
  have e : CMTF.updateFactors E o s = .error .attributeError := by
    rw [CMTF.updateFactors, key (List.range s.cp.X.shape.length) s h hl hlen hc (by simp) (by simpa using hmd)]; rfl
  exact ⟨e, by rw [CMTF.iteration, e]; rfl⟩

/-- The hypotheses of `C59_fails` hold for a `1 × 1` problem with a non-negativity constraint on the second mode. -/
example : ∃ s : CMTFState, ∃ o : CPOpts, 0 < o.rank ∧ s.Sized o.rank [0] [1] ∧ s.cp.nonNeg = some [false, true] ∧
    (∀ m < s.cp.X.shape.length, [false, true][m]? = some false → ∃ on ridge, s.cp.ModeConfig o m false on ridge) := by
  have h : (cmtfPair (one1 2) (one1 1) (one1 1) (full [1] 1) 1 [one1 0] [one1 1] [0]).Sized 1 [0] [1] :=
    cmtfPair_sized (n := 1) (k := 1) (by norm_num) (by norm_num) rfl rfl rfl rfl (.cons (isMode_nat (by norm_num)) .nil) rfl rfl
      (by simp) (by simp)
  refine ⟨{ cmtfPair (one1 2) (one1 1) (one1 1) (full [1] 1) 1 [one1 0] [one1 1] [0] with
    cp := { (cmtfPair (one1 2) (one1 1) (one1 1) (full [1] 1) 1 [one1 0] [one1 1] [0]).cp with nonNeg := some [false, true] } },
    ⟨1, 0, 0, none⟩, by norm_num, ⟨⟨h.cp.wf, h.cp.order, h.cp.nonempty⟩, h.modes, h.map, h.lenY, h.lenV, h.lenW, h.shapeY,
      h.shapeV⟩, rfl, fun m hm hf => ?_⟩
  have hm : m < 2 := hm
  refine ⟨false, none, ⟨_, rfl, hf⟩, ⟨[false, false], rfl, ?_⟩, Or.inl ⟨rfl, rfl⟩⟩
  match m with
  | 0 => rfl
  | 1 => rfl
  | _ + 2 => omega

/-- **C59, what holds**: with flags that are all false the updates are performed (see also `C58_partial`). Missing: any flag that
is true (`C59_fails`). -/
theorem C59_partial {E : Ext} (hE : E.SVDOk) (hN : E.NNLSOk) {o : CPOpts} (hr : 0 < o.rank) {ms qs : List ℕ} {s : CMTFState}
    (h : s.Sized o.rank ms qs) (hl : s.cp.nonNeg = some (List.replicate s.cp.X.shape.length false))
    (hc : ∀ m < s.cp.X.shape.length, ∃ on ridge, s.cp.ModeConfig o m false on ridge) :
    ∃ s', CMTF.updateFactors E o s = .ok s' ∧ s'.Sized o.rank ms qs := by
  obtain ⟨s', e, h1, -⟩ := cmtf_updateFactors_ok hE hN hr h ⟨hl, hc⟩
  exact ⟨s', e, h1⟩

end
end TK
