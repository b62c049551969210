import Verif.Props.Explained

/-!
# Starts that are exact (C101)

If the data are a CP model and the start has the factor matrices of that model in all modes but the first, one iteration of
`CP_ALS` finds the model, and later iterations keep it; with non-negativity constraints too (although the constrained updates do
not minimise the error in general, C38).
-/

namespace TK

open NDArray Fit

noncomputable section

/-- The constraint of a mode as far as this file is concerned. -/
def Meets (nn : Bool) (F : NDArray ℝ) (n R : ℕ) : Prop := nn = true → NonNeg F n R

/-- If some admissible matrix makes the model exact, the update of the mode makes it exact. -/
theorem update_exact {E : Ext} (hE : E.SVDOk) (hN : E.NNLSOk) {o : CPOpts} {s : CPState} {m : ℕ} {nn : Bool}
    (h : s.Sized o.rank) (hm : m < s.X.shape.length) (hw : ∀ r < o.rank, s.dec.weights.get [r] = 1)
    (hc : s.ModeConfig o m nn false none) {Y : NDArray ℝ} (hY : Y.shape = [s.X.shape.getD m 0, o.rank])
    (hYn : Meets nn Y (s.X.shape.getD m 0) o.rank) (h0 : (s.updated m o.rank Y).trueSSE o.rank = 0) :
    ∃ F, F.shape = [s.X.shape.getD m 0, o.rank] ∧ CP.updateFactor E o m s = .ok (s.updated m o.rank F) ∧
      Meets nn F (s.X.shape.getD m 0) o.rank ∧ (s.updated m o.rank F).trueSSE o.rank = 0 := by
  cases nn with
  | false =>
    obtain ⟨F, hF, e, hopt⟩ := C34_update_core hE h hm hw hc
    refine ⟨F, hF, e, fun h => (Bool.false_ne_true h).elim, le_antisymm ?_ (sumIdx_nonneg fun _ _ => sq_nonneg _)⟩
    rw [← h0]; exact hopt Y hY
  | true =>
    set R := o.rank
    set n := s.X.shape.getD m 0 with hn
    set M := mttkrpMat s.X s.dec.factorMatrices m R with hM
    set V := ofMat R R fun a b => gramProd (s.dec.factorMatrices.eraseIdx m) a b with hVd
    obtain ⟨F, e, hF, hFn, hopt⟩ := nonneg_core hN (A := V) (B := M) (m := R) (n := R) (p := n) rfl rfl
    refine ⟨F, hF, updateFactor_ok h.wf.factors h.order hm (h.dim hm) (getSolve_ok hc (by simp)) e hF, fun _ => hFn, ?_⟩
    rw [trueSSE_updated h hm hw hY, LA.fsq_eq_zero_iff, sub_eq_zero] at h0
    have hMK : mat M n R = mat (unfoldMat s.X m) n (s.X.shape.eraseIdx m).prod * mat (s.krp m R) (s.X.shape.eraseIdx m).prod R :=
      mat_mttkrp _ _ _ _
    have hVK := mat_gramProd (m := m) h
    have h1 := hopt Y (hYn rfl)
    have h2 : resid Y V M n R R = 0 := by
      rw [resid_eq, LA.fsq_eq_zero_iff, hMK, hVK, ← h0, Matrix.mul_assoc, sub_self]
    have h3 : resid F V M n R R = 0 := by
      refine le_antisymm (h1.trans h2.le) ?_
      rw [resid_eq]; exact LA.fsq_nonneg _
    rw [resid_eq, LA.fsq_eq_zero_iff, sub_eq_zero, hMK, hVK] at h3
    rw [trueSSE_updated h hm hw hF]
    refine le_antisymm ?_ (LA.fsq_nonneg _)
    have h4 := gram_optimal (Z := mat Y n R) h3
    rw [h0, sub_self] at h4
    refine h4.trans (le_of_eq ?_)
    rw [LA.fsq_eq_zero_iff]

/-- No mode has a penalty or an orthogonality constraint, and the factor matrices of the modes with `P` meet the constraints. -/
def CPState.Feasible (s : CPState) (o : CPOpts) (P : ℕ → Prop) : Prop :=
  ∀ m < s.X.shape.length, ∃ nn, s.ModeConfig o m nn false none ∧
    (P m → ∀ F, s.dec.factorMatrices[m]? = some F → Meets nn F (s.X.shape.getD m 0) o.rank)

theorem CPState.Feasible.congr {s t : CPState} {o : CPOpts} {P : ℕ → Prop} (h : s.Feasible o P) (hX : t.X = s.X)
    (hnn : t.nonNeg = s.nonNeg) (hon : t.orth = s.orth) (hfs : t.dec.factorMatrices = s.dec.factorMatrices) : t.Feasible o P := by
  intro m hm
  rw [hX] at hm
  obtain ⟨nn, ⟨a, b, c⟩, g⟩ := h m hm
  exact ⟨nn, ⟨by rw [hnn]; exact a, by rw [hon]; exact b, c⟩, by rw [hX, hfs]; exact g⟩

theorem CPState.Feasible.updated {s : CPState} {o : CPOpts} {m : ℕ} (h : s.Feasible o (· ≠ m)) {nn : Bool} {F : NDArray ℝ}
    (hc : s.ModeConfig o m nn false none) (hF : Meets nn F (s.X.shape.getD m 0) o.rank) : (s.updated m o.rank F).Feasible o fun _ => True := by
  intro k hk
  obtain ⟨nk, ck, gk⟩ := h k hk
  refine ⟨nk, ⟨ck.nonNeg, ck.orth, ck.ridge⟩, fun _ G hG => ?_⟩
  by_cases hkm : k = m
  · subst hkm
    obtain ⟨l, hl, hn⟩ := hc.nonNeg
    obtain ⟨l', hl', hn'⟩ := ck.nonNeg
    rw [hl] at hl'
    obtain rfl : l = l' := by injection hl'
    rw [hn] at hn'
    obtain rfl : nn = nk := by injection hn'
    have hGF : G = F := by
      have : (s.dec.factorMatrices.set k F)[k]? = some G := hG
      rw [List.getElem?_set] at this
      simp only [if_true] at this
      split at this
      · injection this with this; exact this.symm
      · cases this
    rw [hGF]; exact hF
  · refine gk hkm G ?_
    have : (s.dec.factorMatrices.set m F)[k]? = some G := hG
    rwa [List.getElem?_set_ne (Ne.symm hkm)] at this

/-- Updates of an exact model keep it exact. -/
theorem updateModes_exact {E : Ext} (hE : E.SVDOk) (hN : E.NNLSOk) {o : CPOpts} :
    ∀ {modes : List ℕ} {s : CPState}, s.Sized o.rank → (∀ r < o.rank, s.dec.weights.get [r] = 1) →
      (∀ m ∈ modes, m < s.X.shape.length) → s.Feasible o (fun _ => True) → s.trueSSE o.rank = 0 →
      ∃ s', CP.updateModes E o modes s = .ok s' ∧ s'.X = s.X ∧ s'.Feasible o (fun _ => True) ∧ s'.trueSSE o.rank = 0
  | [], s, _, _, _, hf, h0 => ⟨s, rfl, rfl, hf, h0⟩
  | m :: ms, s, h, hw, hm, hf, h0 => by
    have hm0 := hm m (by simp)
    obtain ⟨nn, hc, hG⟩ := hf m hm0
    have hm' : m < s.dec.factorMatrices.length := by rw [h.wf.factors.length_eq]; exact hm0
    obtain ⟨F, hF, e, hFn, h1⟩ := update_exact hE hN h hm0 hw hc (Y := s.dec.factorMatrices[m]) (h.wf.factors.shape_get hm')
      (hG trivial _ (List.getElem?_eq_getElem hm')) (by rw [trueSSE_self hm']; exact h0)
    obtain ⟨s', e', q1, q2, q3⟩ := updateModes_exact hE hN (modes := ms) (s := s.updated m o.rank F) (h.updated hF) hw
      (fun k hk => hm k (by simp [hk]))
      (CPState.Feasible.updated (fun k hk => (hf k hk).imp fun _ q => ⟨q.1, fun _ => q.2 trivial⟩) hc hFn) h1
    refine ⟨s', ?_, q1, q2, q3⟩
    rw [CP.updateModes, List.foldlM_cons, e, bind_ok]
    exact e'

/-- One sweep makes the model exact if some admissible matrix for the first mode does. -/
theorem updateFactors_exact {E : Ext} (hE : E.SVDOk) (hN : E.NNLSOk) {o : CPOpts} {s : CPState} (h : s.Sized o.rank)
    (hw : ∀ r < o.rank, s.dec.weights.get [r] = 1)
    (hf : s.Feasible o (· ≠ 0)) {Y : NDArray ℝ} (hY : Y.shape = [s.X.shape.getD 0 0, o.rank])
    (hYn : ∀ nn, s.ModeConfig o 0 nn false none → Meets nn Y (s.X.shape.getD 0 0) o.rank)
    (h0 : (s.updated 0 o.rank Y).trueSSE o.rank = 0) :
    ∃ s', CP.updateFactors E o s = .ok s' ∧ s'.X = s.X ∧ s'.Feasible o (fun _ => True) ∧ s'.trueSSE o.rank = 0 := by
  have h2 := h.order
  have hm0 : 0 < s.X.shape.length := by omega
  obtain ⟨nn, hc, -⟩ := hf 0 hm0
  obtain ⟨F, hF, e, hFn, h1⟩ := update_exact hE hN h hm0 hw hc hY (hYn nn hc) h0
  obtain ⟨d, hd⟩ : ∃ d, s.X.shape.length = d + 1 := ⟨s.X.shape.length - 1, by omega⟩
  obtain ⟨s', e', q1, q2, q3⟩ := updateModes_exact hE hN (modes := (List.range d).map Nat.succ) (s := s.updated 0 o.rank F)
    (h.updated hF) hw (fun k hk => by
      obtain ⟨j, hj, rfl⟩ := List.mem_map.1 hk
      have := List.mem_range.1 hj
      show j + 1 < s.X.shape.length
      omega) (hf.updated hc hFn) h1
  refine ⟨s', ?_, q1, q2, q3⟩
  rw [CP.updateFactors, hd, List.range_succ_eq_map, CP.updateModes, List.foldlM_cons, e, bind_ok]
  exact e'

theorem orbit_exact {E : Ext} (hE : E.SVDOk) (hN : E.NNLSOk) {o : CPOpts} (hr : 0 < o.rank) {s : CPState} (h : s.Good o)
    (hw : ∀ r < o.rank, s.dec.weights.get [r] = 1)
    (hf : s.Feasible o (· ≠ 0)) {Y : NDArray ℝ} (hY : Y.shape = [s.X.shape.getD 0 0, o.rank])
    (hYn : ∀ nn, s.ModeConfig o 0 nn false none → Meets nn Y (s.X.shape.getD 0 0) o.rank)
    (h0 : (s.updated 0 o.rank Y).trueSSE o.rank = 0) :
    ∀ j, (CP.orbit E o s (j + 1)).Feasible o (fun _ => True) ∧ (CP.orbit E o s (j + 1)).trueSSE o.rank = 0
  | 0 => by
    obtain ⟨s', e, q1, q2, q3⟩ := updateFactors_exact hE hN h.sized hw hf hY hYn h0
    have h1 := orbit_step hE hN hr h 0
    rw [show CP.orbit E o s 0 = s from rfl, CP.iteration, e, bind_ok, CP.updateConvergence] at h1
    obtain ⟨x, -, hx⟩ := bind_eq_ok.1 h1
    rw [← pure_eq_ok.1 hx]
    exact ⟨q2.congr rfl rfl rfl rfl, q3⟩
  | j + 1 => by
    obtain ⟨f1, f2⟩ := orbit_exact hE hN hr h hw hf hY hYn h0 j
    obtain ⟨gj, pj⟩ := orbit_good hE hN hr h (j + 1)
    obtain ⟨s', e, q1, q2, q3⟩ := updateModes_exact hE hN (modes := List.range (CP.orbit E o s (j + 1)).X.shape.length)
      gj.sized (by rw [pj.weights]; exact hw) (fun m hm => List.mem_range.1 hm) f1 f2
    have h1 := orbit_step hE hN hr h (j + 1)
    rw [CP.iteration, CP.updateFactors, e, bind_ok, CP.updateConvergence] at h1
    obtain ⟨x, -, hx⟩ := bind_eq_ok.1 h1
    rw [← pure_eq_ok.1 hx]
    exact ⟨q2.congr rfl rfl rfl rfl, q3⟩

theorem sqErr_eq_zero_iff {X : NDArray ℝ} {w : ℕ → ℝ} {fs : List (NDArray ℝ)} {R : ℕ} :
    sqErr X w fs R = 0 ↔ ∀ idx, Valid X.shape idx → X.get idx = cpEntry w fs R idx := by
  rw [sqErr, sumSq_eq_zero_iff (f := fun idx => X.get idx - cpEntry w fs R idx)]
  exact forall_congr' fun idx => forall_congr' fun _ => sub_eq_zero

/-- **C101**, the main part: let the data be a CP model with factor matrix `Y` in the first mode, and let the start agree with
it in the other modes; matrices with a non-negativity constraint have no negative entries (in the start: in the other modes).
Then a fit without penalties and orthogonality constraints that performs at least one iteration reproduces the data exactly,
whatever the first factor matrix and the weights of the start are. -/
theorem C101_recovers_partial {E : Ext} (hE : E.SVDOk) (hN : E.NNLSOk) (hQ : E.QROk) {c : CP.Config}
    {nonNeg : Option (List Bool)} {X : NDArray ℝ} (hA : CP.Admissible c.opts nonNeg none X.shape)
    (hridge : c.opts.ridgePenalties = none)
    (hlog : c.Measurable) (hfreq : freqOption c.freq ≠ 0) {arg : InitArg KruskalTensor} {t : KruskalTensor}
    (hi : CP.StartsFrom E c nonNeg none arg X t)
    (ht : t.WF X.shape c.opts.rank) {budget : Int} {mi : Option Int} (hb : 0 < mi.getD budget)
    {loggers : List Logger} {file : Option H5File}
    (hS : Storing (CP.method E c) (CP.newObject nonNeg none budget loggers file) [])
    {Y : NDArray ℝ} (hY : Y.shape = [X.shape.getD 0 0, c.opts.rank])
    (hX : ∀ idx, Valid X.shape idx → X.get idx = cpEntry (fun _ => 1) (t.factorMatrices.set 0 Y) c.opts.rank idx)
    (hYn : ∀ l, nonNeg = some l → l[0]? = some true → NonNeg Y (X.shape.getD 0 0) c.opts.rank)
    (htn : ∀ l, nonNeg = some l → ∀ m, l[m + 1]? = some true → ∀ F, t.factorMatrices[m + 1]? = some F →
      NonNeg F (X.shape.getD (m + 1) 0) c.opts.rank) :
    ∃ w', CP.fit E c X mi arg (CP.newObject nonNeg none budget loggers file) = .ok () w' ∧
      (1 ≤ w'.it → CP.sse w'.st = .ok 0 ∧ ∀ idx, Valid X.shape idx →
        X.get idx = cpEntry (fun r => w'.st.dec.weights.get [r]) w'.st.dec.factorMatrices c.opts.rank idx) := by
  obtain ⟨s0, w', k, e0, h1, -, hit, h2, -, -, hwf, hsse, hX', hw1, -⟩ := C74_fit_completes hE hN hQ hA hlog hfreq hi ht hb hS
  obtain ⟨s0', e0', hG, hX0, -, -, hones, hnn, hon, hdec⟩ := initFit_good (E := E) hQ (old := CP.fresh nonNeg none) rfl hA ht
  rw [e0] at e0'
  obtain rfl : s0 = s0' := by injection e0'
  rw [orbit_iterate hE hN hA.rank k hG] at h2
  have hst : w'.st = CP.orbit E c.opts s0 k := (Except.ok.inj h2).symm
  have hfs : s0.dec.factorMatrices = t.factorMatrices := hdec rfl
  refine ⟨w', h1, fun hk => ?_⟩
  obtain ⟨j, rfl⟩ : ∃ j, k = j + 1 := ⟨k - 1, by omega⟩
  have hflag : ∀ m < X.shape.length, ∃ nn, s0.ModeConfig c.opts m nn false none := by
    intro m hm
    have hlen : (nonNeg.getD (List.replicate X.shape.length false)).length = X.shape.length := by
      cases hq : nonNeg with
      | none => simp
      | some l => simpa using hA.nonNegLen l hq
    refine ⟨_, ⟨_, hnn, List.getElem?_eq_getElem (by rw [show (CP.fresh nonNeg none).nonNeg = nonNeg from rfl, hlen]; exact hm)⟩,
      ⟨_, hon, ?_⟩, Or.inl ⟨hridge, rfl⟩⟩
    show (List.replicate X.shape.length false)[m]? = _
    rw [List.getElem?_replicate, if_pos hm]
  have htrue : ∀ {m : ℕ}, s0.ModeConfig c.opts m true false none → ∃ l, nonNeg = some l ∧ l[m]? = some true := by
    rintro m ⟨⟨l, hl, hm⟩, -, -⟩
    rw [hnn] at hl
    obtain rfl : nonNeg.getD (List.replicate X.shape.length false) = l := by injection hl
    cases hq : nonNeg with
    | none =>
      rw [hq, Option.getD_none, List.getElem?_replicate] at hm
      split at hm <;> simp at hm
    | some l => rw [hq] at hm; exact ⟨l, rfl, hm⟩
  have hf : s0.Feasible c.opts (· ≠ 0) := by
    intro m hm
    rw [hX0] at hm
    obtain ⟨nn, hc⟩ := hflag m hm
    refine ⟨nn, hc, fun hm0 F hF => ?_⟩
    rintro rfl
    obtain ⟨l, hl, hlm⟩ := htrue hc
    obtain ⟨m, rfl⟩ : ∃ i, m = i + 1 := ⟨m - 1, by omega⟩
    rw [hfs] at hF
    rw [hX0]
    exact htn l hl m hlm F hF
  have hd := hA.order
  have hex := orbit_exact hE hN hA.rank hG hones hf (Y := Y) (by rw [hX0]; exact hY) (by
      rintro nn hc rfl
      obtain ⟨l, hl, hlm⟩ := htrue hc
      rw [hX0]
      exact hYn l hl hlm) (by
      rw [CPState.trueSSE, sqErr_congr_weights (w := fun r => (s0.updated 0 c.opts.rank Y).dec.weights.get [r]) (w' := fun _ => 1)
        (fun r hr => hones r hr), sqErr_eq_zero_iff]
      show ∀ idx, Valid s0.X.shape idx → s0.X.get idx = cpEntry (fun _ => 1) (s0.dec.factorMatrices.set 0 Y) c.opts.rank idx
      rw [hX0, hfs]
      exact hX) j
  have h0 : w'.st.trueSSE c.opts.rank = 0 := by rw [hst]; exact hex.2
  refine ⟨by rw [hsse, h0], ?_⟩
  rw [CPState.trueSSE, sqErr_eq_zero_iff, hX'] at h0
  exact h0

/-- Weights can be moved into the first factor matrix. -/
theorem cpEntry_absorb {fs : List (NDArray ℝ)} {sizes : List ℕ} {R : ℕ} (hf : Factors fs sizes R) (h0 : 0 < sizes.length)
    (w : ℕ → ℝ) {idx : List ℕ} (hidx : Valid sizes idx) :
    cpEntry (fun _ => 1) (fs.set 0 (ofMat (sizes.getD 0 0) R fun i r => w r * (fs.getD 0 (full [] 0)).get [i, r])) R idx
      = cpEntry w fs R idx := by
  match sizes, fs, idx, hf, hidx with
  | n :: ns, F :: fs, i :: idx, hf, hidx =>
    refine Finset.sum_congr rfl fun r hr => ?_
    rw [one_mul]
    show (ofMat n R fun i r => w r * ((F :: fs).getD 0 (full [] 0)).get [i, r]).get [i, r] * rankOne fs idx r
      = w r * (F.get [i, r] * rankOne fs idx r)
    rw [get_ofMat hidx.1 (by simpa using hr)]
    show w r * F.get [i, r] * _ = _
    rw [mul_assoc]

/-- **C101**, the part that holds: a start that reproduces the data exactly (and meets the non-negativity constraints, also with
its weights) leads to a result that reproduces the data exactly, if the fit performs an iteration or the weights are 1. No
penalties and no orthogonality constraints. Missing: a start with other weights where the fit performs no iteration
(`C101_fails`), and orthogonality constraints. -/
theorem C101_exact_start_partial {E : Ext} (hE : E.SVDOk) (hN : E.NNLSOk) (hQ : E.QROk) {c : CP.Config}
    {nonNeg : Option (List Bool)} {X : NDArray ℝ} (hA : CP.Admissible c.opts nonNeg none X.shape)
    (hridge : c.opts.ridgePenalties = none)
    (hlog : c.Measurable) (hfreq : freqOption c.freq ≠ 0) {arg : InitArg KruskalTensor} {t : KruskalTensor}
    (hi : CP.StartsFrom E c nonNeg none arg X t)
    (ht : t.WF X.shape c.opts.rank) {budget : Int} {mi : Option Int} (hb : 0 < mi.getD budget)
    {loggers : List Logger} {file : Option H5File}
    (hS : Storing (CP.method E c) (CP.newObject nonNeg none budget loggers file) [])
    (hX : ∀ idx, Valid X.shape idx → X.get idx = cpEntry (fun r => t.weights.get [r]) t.factorMatrices c.opts.rank idx)
    (htn : ∀ l, nonNeg = some l → ∀ m, l[m]? = some true → ∀ F, t.factorMatrices[m]? = some F →
      NonNeg F (X.shape.getD m 0) c.opts.rank)
    (hwn : nonNeg ≠ none → ∀ r < c.opts.rank, 0 ≤ t.weights.get [r]) :
    ∃ w', CP.fit E c X mi arg (CP.newObject nonNeg none budget loggers file) = .ok () w' ∧
      (1 ≤ w'.it ∨ (∀ r < c.opts.rank, t.weights.get [r] = 1) → CP.sse w'.st = .ok 0 ∧ ∀ idx, Valid X.shape idx →
        X.get idx = cpEntry (fun r => w'.st.dec.weights.get [r]) w'.st.dec.factorMatrices c.opts.rank idx) := by
  have hd := hA.order
  have hlen := ht.factors.length_eq
  have h00 : 0 < t.factorMatrices.length := by omega
  have hget : t.factorMatrices.getD 0 (full [] 0) = t.factorMatrices[0] := by
    rw [List.getD_eq_getElem?_getD, List.getElem?_eq_getElem h00]; rfl
  obtain ⟨w1, f1, g⟩ := C101_recovers_partial hE hN hQ hA hridge hlog hfreq hi ht hb hS
    (Y := ofMat (X.shape.getD 0 0) c.opts.rank fun i r => t.weights.get [r] * (t.factorMatrices.getD 0 (full [] 0)).get [i, r])
    (shape_ofMat _ _ _) (fun idx hidx => by
      rw [hX idx hidx, cpEntry_absorb ht.factors (by omega) (fun r => t.weights.get [r]) hidx])
    (fun l hl h0 i hi r hr => by
      rw [get_ofMat hi hr, hget]
      exact mul_nonneg (hwn (by rw [hl]; simp) r hr) (htn l hl 0 h0 _ (List.getElem?_eq_getElem h00) i hi r hr))
    (fun l hl m hm F hF => htn l hl (m + 1) hm F hF)
  refine ⟨w1, f1, fun hor => ?_⟩
  rcases hor with hk | hone
  · exact g hk
  obtain ⟨s0, w', k, e0, h1, -, hit, h2, -, h6, hwf, hsse, hX', -⟩ := C74_fit_completes hE hN hQ hA hlog hfreq hi ht hb hS
  obtain ⟨s0', e0', hG, hX0, -, -, hones, -, -, hdec⟩ := initFit_good (E := E) hQ (old := CP.fresh nonNeg none) rfl hA ht
  rw [e0] at e0'
  obtain rfl : s0 = s0' := by injection e0'
  obtain rfl : w1 = w' := by rw [f1] at h1; injection h1
  rcases Nat.eq_zero_or_pos k with rfl | hk
  · have hst : s0 = w1.st := Except.ok.inj h2
    have h0 : w1.st.trueSSE c.opts.rank = 0 := by
      rw [← hst, CPState.trueSSE, sqErr_congr_weights (w' := fun r => t.weights.get [r])
        (fun r hr => (hones r hr).trans (hone r hr).symm), sqErr_eq_zero_iff, hX0, hdec rfl]
      exact hX
    refine ⟨by rw [hsse, h0], ?_⟩
    rw [CPState.trueSSE, sqErr_eq_zero_iff, hX'] at h0
    exact h0
  · exact g (by omega)

/-- **C101** is false of the code for a start with weights: `_init_fit` replaces the weights by ones, and if the resulting
model is within the tolerance for the relative loss, no iteration is performed. Here the data are the number `1 + e`, the start
is `(1 + e) · 1 · 1`, and the result is `1`. -/
theorem C101_fails {E : Ext} (hE : E.SVDOk) (hN : E.NNLSOk) (hQ : E.QROk) {tol e : ℝ} (he : 0 < e) (he1 : e ^ 2 ≤ tol) :
    ∃ w', CP.fit E ⟨⟨1, tol, tol, none⟩, "precomputed", none, true, [], fun _ _ _ _ => 0, id, fun _ => none⟩
        (full [1, 1] (1 + e)) (some 10) (.tensor ⟨1, [full [1, 1] 1, full [1, 1] 1], full [1] (1 + e)⟩)
        (CP.newObject none none 10 [] none) = .ok () w' ∧
      (∀ idx, Valid [1, 1] idx → (full [1, 1] (1 + e)).get idx =
        cpEntry (fun r => (full [1] (1 + e)).get [r]) [full [1, 1] 1, full [1, 1] 1] 1 idx) ∧
      w'.it = 0 ∧ CP.sse w'.st = .ok (e ^ 2) ∧ e ^ 2 ≠ 0 := by
  set c : CP.Config := ⟨⟨1, tol, tol, none⟩, "precomputed", none, true, [], fun _ _ _ _ => 0, id, fun _ => none⟩ with hc
  set t : KruskalTensor := ⟨1, [full [1, 1] 1, full [1, 1] 1], full [1] (1 + e)⟩ with htd
  have hA : CP.Admissible c.opts none none (full [1, 1] (1 + e)).shape :=
    ⟨Nat.one_pos, by simp, by simp, by simp, by simp, by simp [hc], by simp, by simp⟩
  have ht : t.WF (full [1, 1] (1 + e)).shape 1 := ⟨rfl, .cons rfl (.cons rfl .nil), rfl⟩
  have hi : c.init.toLower = "precomputed" := by
    show "precomputed".toLower = _
    rw [String.toLower, ← String.toList_inj, String.toList_map]; decide
  obtain ⟨s0, w', k, e0, h1, h2, hit, h4, h5, h6, -, hsse, hX', -⟩ := C74_fit_completes hE hN hQ (c := c) (mi := some 10)
    (budget := 10) (loggers := []) (file := none) hA (by intro p hp; simp [hc] at hp)
    (show freqOption none ≠ 0 by decide) (startsFrom_precomputed hi ht) ht (by decide)
    ⟨fun h => absurd h (show ¬ (0 : Int) < -1 by decide), fun h => absurd h (show ¬ (0 : Int) < -1 by decide),
      fun h => absurd h (show ¬ (0 : Int) < -1 by decide)⟩
  obtain ⟨s0', e0', hG, hX, -, -, hw, -, -, hdec⟩ := initFit_good (E := E) hQ (old := CP.fresh none none) (o := c.opts) rfl hA ht
  rw [e0] at e0'
  obtain rfl : s0 = s0' := by injection e0'
  have htr : s0.trueSSE 1 = e ^ 2 := by
    rw [CPState.trueSSE, sqErr_congr_weights (w' := fun _ => 1) hw, sqErr, hX, hdec rfl]
    simp [sumIdx, cpEntry, rankOne, htd, get_full, hc]
  have hsq : s0.XNorm ^ 2 = (1 + e) ^ 2 := by
    rw [hG.cached.norm, Real.sq_sqrt (sumIdx_nonneg fun _ _ => sq_nonneg _), hX]
    simp [sumIdx, get_full]
  have hpos : 0 < (1 + e) ^ 2 := by positivity
  have hstop : CP.shouldStop c.opts s0 = .ok true := by
    rw [CP.shouldStop, C35_sse hG.sized hG.cached, bind_ok, show c.opts.rank = 1 from rfl, htr, hsq, FV.div, if_pos hpos.ne']
    refine congrArg Except.ok ?_
    have : (FV.fin (e ^ 2 / (1 + e) ^ 2)).lt c.opts.relLossTol = true := by
      simp only [FV.lt, decide_eq_true_eq]
      show _ < tol
      rw [div_lt_iff₀ hpos]
      have h1 : 0 < e ^ 2 := by positivity
      nlinarith
    rw [this, Bool.or_true]
  have hk : k = 0 := by
    by_contra hne
    obtain ⟨s, hs, hgo⟩ := h5 0 (by omega)
    obtain rfl : s0 = s := Except.ok.inj hs
    rw [hstop] at hgo
    cases hgo
  subst hk
  have hst : s0 = w'.st := Except.ok.inj h4
  refine ⟨w', h1, ?_, hit, ?_, by positivity⟩
  · intro idx hidx
    rw [get_full hidx]
    obtain ⟨i, j, rfl⟩ : ∃ i j, idx = [i, j] := by
      match idx, hidx with
      | [i, j], _ => exact ⟨i, j, rfl⟩
    obtain ⟨hi, hj, -⟩ := hidx
    obtain rfl : i = 0 := by omega
    obtain rfl : j = 0 := by omega
    simp [cpEntry, rankOne, get_full]
  · rw [hsse, ← hst]
    exact congrArg Except.ok htr

/-- The hypotheses of `C101_recovers_partial`: a 2 × 2 model of rank 1 with a non-negativity constraint on the second mode. -/
example : ∃ (X Y : NDArray ℝ) (t : KruskalTensor), CP.Admissible ⟨1, 0, 0, none⟩ (some [false, true]) none X.shape ∧
    t.WF X.shape 1 ∧ Y.shape = [X.shape.getD 0 0, 1] ∧
    (∀ idx, Valid X.shape idx → X.get idx = cpEntry (fun _ => 1) (t.factorMatrices.set 0 Y) 1 idx) ∧
    (∀ F, t.factorMatrices[1]? = some F → NonNeg F (X.shape.getD 1 0) 1) ∧
    ∃ idx, Valid X.shape idx ∧ X.get idx ≠ cpEntry (fun r => t.weights.get [r]) t.factorMatrices 1 idx := by
  refine ⟨full [2, 2] 6, full [2, 1] 2, ⟨1, [full [2, 1] 5, full [2, 1] 3], full [1] 1⟩,
    ⟨by decide, by simp, by simp, by simp, by simp, by simp, by simp, by simp⟩, ⟨rfl, .cons rfl (.cons rfl .nil), rfl⟩, rfl, ?_, ?_,
    [0, 0], by simp [Valid], ?_⟩
  · intro idx hidx
    rw [get_full (s := [2, 2]) hidx]
    match idx, hidx with
    | [i, j], hidx =>
      obtain ⟨hi, hj, -⟩ := hidx
      simp only [cpEntry, rankOne, List.set_cons_zero, Finset.sum_range_one, one_mul, mul_one]
      rw [get_full (s := [2, 1]) (idx := [i, 0]) ⟨hi, by omega, trivial⟩,
        get_full (s := [2, 1]) (idx := [j, 0]) ⟨hj, by omega, trivial⟩]
      norm_num
  · rintro F hF i hi j hj
    obtain rfl : full [2, 1] 3 = F := by simpa using hF
    rw [get_full (s := [2, 1]) (idx := [i, j]) ⟨hi, hj, trivial⟩]; norm_num
  · simp [cpEntry, rankOne, get_full]; norm_num

end
end TK
