import Verif.Props.Symmetry
import Verif.Props.CMTFFitMore
import Verif.Props.Exact

/-!
# C126: `CMTF_ALS` without coupled matrices

Source: cmtf.py:76-82 (`_init_fit` normalises the decomposition), 84-93, 146-170 (the methods of `CP_ALS` are used for modes to which
nothing is coupled), cp.py:385-423.
-/

namespace TK
open NDArray Fit
open EStateM (Result)

noncomputable section

/-- The state `z` of a `CP_ALS` object has what the updates of the `CMTF_ALS` object `s` without coupled matrices use. -/
structure CMTFState.Alone (s : CMTFState) (z : CPState) : Prop where
  map : s.map = []
  X : s.cp.X = z.X
  fs : s.cp.dec.factorMatrices = z.dec.factorMatrices
  nonNeg : s.cp.nonNeg = z.nonNeg
  orth : s.cp.orth = z.orth

theorem alone_updateFactor {E : Ext} {o : CPOpts} {m : ℕ} {s s' : CMTFState} {z z' : CPState} (h : s.Alone z)
    (e : CMTF.updateFactor E o m s = .ok s') (e' : CP.updateFactor E o m z = .ok z') : s'.Alone z' := by
  rw [CMTF.updateFactor, CMTF.alsLhs, CMTF.alsRhs, h.map] at e
  simp only [CMTF.lookup] at e
  have h1 : CP.alsRhs s.cp m = CP.alsRhs z m := by rw [CP.alsRhs, CP.alsRhs, h.X, h.fs]
  have h2 : CP.getSolve E o s.cp m = CP.getSolve E o z m := by rw [CP.getSolve, CP.getSolve, h.nonNeg, h.orth]
  rw [h1, h2, h.fs] at e
  rw [CP.updateFactor] at e'
  obtain ⟨lhs, a1, e⟩ := bind_eq_ok.1 e
  obtain ⟨rhs, a2, e⟩ := bind_eq_ok.1 e
  obtain ⟨solve, a3, e⟩ := bind_eq_ok.1 e
  obtain ⟨new, a4, e⟩ := bind_eq_ok.1 e
  obtain ⟨F, a5, e⟩ := bind_eq_ok.1 e
  obtain ⟨F', a6, e⟩ := bind_eq_ok.1 e
  rw [a1, bind_ok, a2, bind_ok, a3, bind_ok, a4, bind_ok, a5, bind_ok, a6, bind_ok] at e'
  rw [← pure_eq_ok.1 e, ← pure_eq_ok.1 e']
  exact ⟨rfl, h.X, rfl, h.nonNeg, h.orth⟩

theorem alone_updateModes {E : Ext} {o : CPOpts} : ∀ (modes : List ℕ) {s s' : CMTFState} {z z' : CPState}, s.Alone z →
    CMTF.updateModes E o modes s = .ok s' → CP.updateModes E o modes z = .ok z' → s'.Alone z'
  | [], s, s', z, z', h, e, e' => by
    obtain rfl : s = s' := by simpa [CMTF.updateModes, pure, Except.pure] using e
    obtain rfl : z = z' := by simpa [CP.updateModes, pure, Except.pure] using e'
    exact h
  | m :: ms, s, s', z, z', h, e, e' => by
    rw [CMTF.updateModes, List.foldlM_cons] at e
    rw [CP.updateModes, List.foldlM_cons] at e'
    obtain ⟨s1, a1, e⟩ := bind_eq_ok.1 e
    obtain ⟨z1, a1', e'⟩ := bind_eq_ok.1 e'
    obtain ⟨b, -, a1⟩ := bind_eq_ok.1 a1
    cases b with
    | true => cases a1
    | false => exact alone_updateModes ms (alone_updateFactor h a1 a1') e e'

theorem alone_iteration {E : Ext} {o : CPOpts} {s s' : CMTFState} {z z' : CPState} (h : s.Alone z)
    (e : CMTF.iteration E o s = .ok s') (e' : CP.iteration E o z = .ok z') : s'.Alone z' := by
  rw [CMTF.iteration, CMTF.updateFactors] at e
  obtain ⟨s1, a, e⟩ := bind_eq_ok.1 e
  obtain ⟨s2, a1, a⟩ := bind_eq_ok.1 a
  obtain ⟨z1, x, a1', -, rfl⟩ := iteration_inv e'
  rw [h.X] at a1
  have g := alone_updateModes _ h a1 a1'
  rw [g.map] at a
  obtain rfl : s2 = s1 := by simpa [pure, Except.pure] using a
  rw [CMTF.updateConvergence] at e
  obtain ⟨y, -, e⟩ := bind_eq_ok.1 e
  rw [← pure_eq_ok.1 e]
  exact ⟨g.map, g.X, g.fs, g.nonNeg, g.orth⟩

/-- What the factor matrices of mode `m` of the result are multiplied by, when the columns of the start have length `ν m` in mode
`m` and there are `d` modes: `_init_fit` divides the columns by their length plus `1e-15`, and the update of the first mode makes up
for the other modes. -/
def aloneScale (ν : ℕ → ℝ) (d m : ℕ) : ℝ :=
  if m = 0 then ∏ k ∈ Finset.range (d - 1), (ν (k + 1) + 1e-15) else 1 / (ν m + 1e-15)

theorem aloneScale_pos {ν : ℕ → ℝ} {d : ℕ} (h : ∀ k < d, 0 ≤ ν k) {m : ℕ} (hm : m < d) : 0 < aloneScale ν d m := by
  unfold aloneScale
  split_ifs with h0
  · refine Finset.prod_pos fun k hk => ?_
    have := h (k + 1) (by have := Finset.mem_range.1 hk; omega)
    positivity
  · have := h m hm
    positivity

theorem prod_aloneScale {ν : ℕ → ℝ} {d : ℕ} (h : ∀ k < d, 0 ≤ ν k) (hd : 0 < d) :
    ∏ m ∈ Finset.range d, aloneScale ν d m = 1 := by
  obtain ⟨n, rfl⟩ : ∃ n, d = n + 1 := ⟨d - 1, by omega⟩
  rw [Finset.prod_range_succ']
  simp only [aloneScale, Nat.succ_ne_zero, if_false, if_true, Nat.add_sub_cancel]
  rw [← Finset.prod_mul_distrib]
  refine Finset.prod_eq_one fun k hk => ?_
  have := h (k + 1) (by have := Finset.mem_range.1 hk; omega)
  have : ν (k + 1) + 1e-15 ≠ 0 := by positivity
  field_simp

theorem cmtf_never_stops {o : CPOpts} (h1 : o.convergenceTol ≤ 0) (h2 : o.relLossTol ≤ 0) {s : CMTFState} {R : ℕ} {ms qs : List ℕ}
    (h : s.Sized R ms qs) : CMTF.shouldStop o s = .ok false := by
  have a1 : s.cp.relChange.absLt o.convergenceTol = false := by
    cases s.cp.relChange with
    | fin x => exact decide_eq_false (not_lt.2 (h1.trans (abs_nonneg x)))
    | pinf => rfl
    | ninf => rfl
    | nan => rfl
  have h3 := cmtf_first_iteration (o := o) (s := { s with cp := { s.cp with relChange := .pinf } }) (R := R) (ms := ms) (qs := qs)
    ⟨⟨h.cp.wf, h.cp.order, h.cp.nonempty⟩, h.modes, h.map, h.lenY, h.lenV, h.lenW, h.shapeY, h.shapeV⟩ rfl h2
  rw [CMTF.shouldStop] at h3 ⊢
  obtain ⟨e, b1, h3⟩ := bind_eq_ok.1 h3
  have b2 : CMTF.sse s = .ok e := b1
  rw [b2, bind_ok, a1, Bool.false_or]
  have h4 := pure_eq_ok.1 h3
  exact congrArg Except.ok (Bool.or_eq_false_iff.1 h4).2

theorem cp_first_iteration {o : CPOpts} {s : CPState} (h : s.Good o) (hrel : s.relChange = .pinf) (htol : o.relLossTol ≤ 0) :
    CP.shouldStop o s = .ok false := by
  rw [CP.shouldStop, C35_sse h.sized h.cached, bind_ok, hrel]
  refine congrArg Except.ok ?_
  have h0 : 0 ≤ s.trueSSE o.rank := sumIdx_nonneg fun _ _ => sq_nonneg _
  have : (FV.div (s.trueSSE o.rank) (s.XNorm ^ 2)).lt o.relLossTol = false := by
    unfold FV.div
    split
    · exact decide_eq_false (not_lt.2 (htol.trans (div_nonneg h0 (sq_nonneg _))))
    · split
      · rfl
      · rw [if_neg (not_lt.2 h0)]; rfl
  rw [this]; rfl

theorem modeProd_const {g : NDArray ℝ → ℕ → ℝ} : ∀ {fs : List (NDArray ℝ)} {sizes : List ℕ} {ν : ℕ → ℝ},
    fs.length = sizes.length → (∀ m F, fs[m]? = some F → g F (sizes.getD m 0) = ν m) →
    modeProd g fs sizes = ∏ k ∈ Finset.range sizes.length, ν k
  | [], [], _, _, _ => by simp [modeProd]
  | F :: fs, n :: ns, ν, hl, h => by
    rw [modeProd, List.length_cons, Finset.prod_range_succ', mul_comm,
      modeProd_const (ν := fun k => ν (k + 1)) (by simpa using hl) fun m F hF => by simpa using h (m + 1) F (by simpa using hF)]
    have := h 0 F rfl
    simp only [List.getD_cons_zero] at this
    rw [this]

theorem FactorsMoved.modeProd_colLen {R : ℕ} {ss : List ModeChange} {sizes : List ℕ} {fs fs' : List (NDArray ℝ)}
    (h : FactorsMoved R (Equiv.refl ℕ) ss sizes fs fs') (hs : ∀ s ∈ ss, s.row = Equiv.refl ℕ ∧ ∀ r, 0 ≤ s.coef r) {r : ℕ}
    (hr : r < R) : modeProd (fun F m => colLen F m r) fs' sizes = coefProd ss r * modeProd (fun F m => colLen F m r) fs sizes := by
  induction h with
  | nil => simp [modeProd, coefProd]
  | @cons s n F F' ss ns fs fs' h1 h2 h3 h4 ih =>
    obtain ⟨a, b⟩ := hs s (by simp)
    have := ih fun s' hs' => hs s' (by simp [hs'])
    rw [modeProd, modeProd, this, colLen_scale (F := F) (c := s.coef r) fun i hi => by
      have := h3 i hi r hr
      rw [a] at this
      rw [mul_comm]; exact this, abs_of_nonneg (b r)]
    simp only [coefProd, List.map_cons, List.prod_cons]
    ring

/-- **C126, what holds.** Without constraints and penalties, let all columns of the start have length `ν m` in mode `m`, and let `p` be
the product of these lengths. A fit of `CMTF_ALS` without coupled matrices (with `rel_loss_tol ≤ 0`, and either `convergence_tol ≤ 0`
or `p = 1`) makes as many iterations as the fit of `CP_ALS` with the same options from the same start. Before the final
normalisation the decomposition `sk` represents `p` times the tensor of the result of `CP_ALS`; the columns of the result are those of
`CP_ALS` times `aloneScale`, divided by their length plus `1e-15`, and its weights are `p` times the lengths of the components of
`CP_ALS`. For `p = 1` - columns of length one, as the SVD start has them - both objects thus fit the same model. Missing:
other starts (false, `C126_fails`), columns of different lengths (such as those of the random start, whose lengths are only close to
one), constraints and penalties. -/
theorem C126_alone_partial {E : Ext} (hE : E.SVDOk) (hN : E.NNLSOk) (hQ : E.QROk) {c : CMTF.Config} {X : NDArray ℝ}
    (hA : CP.Admissible c.cp.opts none none X.shape) (hridge : c.cp.opts.ridgePenalties = none) (hrl : c.cp.opts.relLossTol ≤ 0)
    (hlog : c.cp.Measurable) (hlog' : c.Measurable [] []) (hfreq : freqOption c.cp.freq ≠ 0)
    {arg : InitArg KruskalTensor} {t : KruskalTensor} (hi : CP.StartsFrom E c.cp none none arg X t)
    (ht : t.WF X.shape c.cp.opts.rank) {ν : ℕ → ℝ} {p : ℝ}
    (hν : ∀ m F, t.factorMatrices[m]? = some F → ∀ r < c.cp.opts.rank, colLen F (X.shape.getD m 0) r = ν m)
    (hp : ∏ m ∈ Finset.range X.shape.length, ν m = p) (htol : c.cp.opts.convergenceTol ≤ 0 ∨ p = 1)
    {budget : Int} {mi : Option Int} (hb : 0 < mi.getD budget) {loggers loggers' : List Logger} {file file' : Option H5File}
    (hS : Storing (CP.method E c.cp) (CP.newObject none none budget loggers file) [])
    (hS' : Storing (CMTF.method E c) (CMTF.newObject none none budget loggers' file') []) :
    ∃ w w' sk, CP.fit E c.cp X mi arg (CP.newObject none none budget loggers file) = .ok () w ∧
      CMTF.fit E c X [] [] mi arg (CMTF.newObject none none budget loggers' file') = .ok () w' ∧ w'.it = w.it ∧
      CMTF.normalizeComponents sk = .ok w'.st ∧
      (∀ idx, Valid X.shape idx → cpEntry (fun r => sk.cp.dec.weights.get [r]) sk.cp.dec.factorMatrices c.cp.opts.rank idx
        = p * cpEntry (fun r => w.st.dec.weights.get [r]) w.st.dec.factorMatrices c.cp.opts.rank idx) ∧
      (p = 1 → CMTF.sse sk = CP.sse w.st) ∧
      (∀ m F F', w.st.dec.factorMatrices[m]? = some F → w'.st.cp.dec.factorMatrices[m]? = some F' →
        ∀ i < X.shape.getD m 0, ∀ r < c.cp.opts.rank, F'.get [i, r] = aloneScale ν X.shape.length m * F.get [i, r]
          / (aloneScale ν X.shape.length m * colLen F (X.shape.getD m 0) r + 1e-15)) ∧
      (∀ r < c.cp.opts.rank, w'.st.cp.dec.weights.get [r] =
        p * modeProd (fun F m => colLen F m r) w.st.dec.factorMatrices X.shape) := by
  have hr := hA.rank
  have hN0 : 0 < X.shape.length := by have := hA.order; omega
  have hν0 : ∀ k < X.shape.length, 0 ≤ ν k := fun k hk => by
    rw [← hν k _ (List.getElem?_eq_getElem (by rw [ht.factors.length_eq]; exact hk)) 0 hr]
    exact colLen_nonneg _ _ _
  set o := c.cp.opts with ho
  set α := aloneScale ν X.shape.length with hα
  set ss := changes X.shape.length (fun _ => Equiv.refl ℕ) fun k _ => α k with hss
  obtain ⟨s, w, k, e0, h1, h2, h3, h4, h5, h6, hwf, -⟩ := C74_fit_completes hE hN hQ hA hlog hfreq hi ht hb hS
  obtain ⟨z', ez, hG, hXs, -, hrel, hw, hnn, hon, hdec⟩ := initFit_good (E := E) hQ (old := CP.fresh none none) rfl hA ht
  rw [e0] at ez
  obtain rfl : s = z' := Except.ok.inj ez
  have hC0 : CMTF.Coupled X.shape [] [] [] [] := ⟨.nil, rfl, by simp⟩
  obtain ⟨u, s0, sk, w', k', g0, g1, g2, g3, g4, g5, g6, g7, g8, g9, -⟩ :=
    C83_fit_completes hE hN hQ hA (by simp) hC0 hlog' hfreq hi ht hb hS'
  have hcfg := g0.cfg hA (by simp)
  -- the start of the `CMTF_ALS` object as a `CP_ALS` state with unit weights
  obtain ⟨v, ev, wfv, hvf, hvw⟩ := normalizeComponents_ok g0.wf true 1e-15
  have hv : v = s0.cp.dec := by
    have := g0.normalised
    rw [ev] at this
    exact Except.ok.inj this
  rw [hv] at wfv hvf hvw
  rw [g0.same rfl] at hvf hvw
  have hw0 : ∀ r < o.rank, s0.cp.dec.weights.get [r] = p := fun r hr => by
    rw [g0.startWeights hr, modeProd_const (ν := ν) ht.factors.length_eq fun m F hF => hν m F hF r hr, hp]
  set z : CPState := { s0.cp with
    dec := { s0.cp.dec with weights := full [o.rank] 1 }
    lastMode := none
    prevSSE := sqErr X (fun r => (full [o.rank] (1 : ℝ)).get [r]) s0.cp.dec.factorMatrices o.rank } with hz
  have hzX : z.X = X := g0.eqX
  have hzw : ∀ r < o.rank, z.dec.weights.get [r] = 1 := fun r hr => by
    show (full [o.rank] (1 : ℝ)).get [r] = 1
    rw [get_full (by simp [hr])]
  have hUz : z.Unconstrained := by
    refine ⟨⟨_, g0.eqNonNeg, fun m hm => ?_⟩, ⟨_, g0.eqOrth, fun m hm => ?_⟩⟩ <;>
      simpa [List.getElem?_replicate] using hzX ▸ hm
  have hU : s.Unconstrained := by
    refine ⟨⟨_, hnn, fun m hm => ?_⟩, ⟨_, hon, fun m hm => ?_⟩⟩ <;>
      simpa [CP.fresh, List.getElem?_replicate] using hXs ▸ hm
  have hGz : z.Good o := by
    refine ⟨⟨⟨?_, ?_, rfl⟩, ?_, ?_⟩, ⟨?_, by simp [hz]⟩, fun m hm => ?_, ?_⟩
    · exact g0.sized.cp.wf.rank
    · exact g0.sized.cp.wf.factors
    · exact g0.sized.cp.order
    · exact g0.sized.cp.nonempty
    · show s0.cp.XNorm = _
      rw [hzX, g0.eqNorm, ← frobNorm_sq, Real.sqrt_sq (show 0 ≤ frobNorm X from Real.sqrt_nonneg _)]
    · obtain ⟨l1, a1, b1⟩ := hUz.nonNeg
      obtain ⟨l2, a2, b2⟩ := hUz.orth
      exact ⟨false, false, none, ⟨⟨l1, a1, b1 m hm⟩, ⟨l2, a2, b2 m hm⟩, Or.inl ⟨hridge, rfl⟩⟩, by simp⟩
    · show sqErr X _ _ _ = sqErr z.X _ _ _
      rw [hzX]
  have hal0 : s0.Alone z := ⟨by rw [g0.sized.map, g0.eqModes]; rfl, rfl, rfl, rfl, rfl⟩
  have hgood := cmtf_orbit_good hE hN hr g0.sized hcfg
  have hal : ∀ j, (CMTF.orbit E o s0 j).Alone (CP.orbit E o z j) := by
    intro j
    induction j with
    | zero => exact hal0
    | succ j ih => exact alone_iteration ih (hgood j).2.2.2.1 (orbit_step hE hN hr hGz j)
  -- the two `CP_ALS` runs correspond
  have hαp : ∀ m < X.shape.length, 0 < α m := fun m hm => aloneScale_pos hν0 hm
  have hC : Change o.rank (Equiv.refl ℕ) X.shape ss 1 :=
    change_of rfl (by simp) (by simp) (fun k hk => ⟨α k ^ 2, by have := hαp k hk; positivity, by simp⟩)
      (fun _ _ => prod_aloneScale hν0 hN0)
  have hTM : TensorMoved ss 1 s.X z.X := by
    rw [hXs, hzX]
    exact ⟨rfl, fun idx hv => by rw [hss, moveIdx_changes hv.length_eq, mapIdx_refl, one_mul]⟩
  have hFM : FactorsMoved o.rank (Equiv.refl ℕ) (ss.eraseIdx 0) (s.X.shape.eraseIdx 0) (s.dec.factorMatrices.eraseIdx 0)
      (z.dec.factorMatrices.eraseIdx 0) := by
    rw [hXs, hdec rfl]
    have hzf : Factors z.dec.factorMatrices X.shape o.rank := by rw [← hzX]; exact hGz.sized.wf.factors
    refine FactorsMoved.of_get (by simp [hss, List.length_eraseIdx]) (ht.factors.eraseIdx 0) (hzf.eraseIdx 0)
      fun m s F F' hs hF hF' i hi r hr => ?_
    obtain ⟨hm, rfl⟩ := getElem?_changes (getElem?_erase_zero hs)
    have hF := getElem?_erase_zero hF
    have hF' : s0.cp.dec.factorMatrices[m + 1]? = some F' := getElem?_erase_zero hF'
    have hi' : i < X.shape.getD (m + 1) 0 := by
      have : X.shape.eraseIdx 0 = X.shape.tail := by simp
      rw [this] at hi
      simpa [List.getD] using hi
    rw [hvf, List.getElem?_zipWith, hF, List.getElem?_eq_getElem hm] at hF'
    obtain rfl := Option.some.inj hF'
    have hn : X.shape[m + 1] = X.shape.getD (m + 1) 0 := by simp [List.getD, hm]
    show (normMat F X.shape[m + 1] o.rank 1e-15).get [i, r] = α (m + 1) * F.get [i, r]
    rw [normMat, hn, get_ofMat hi' hr, hν _ F hF r hr, hα, aloneScale, if_neg (by omega)]
    ring
  have horb := fun j => orbit_moved_rest hE hN hE hN hr hridge hG hGz hU hUz (by rw [hXs]; exact hC) hTM hFM j
  have hWs : ∀ j, ∀ r < o.rank, (CP.orbit E o s j).dec.weights.get [r] = 1 := fun j => by
    rw [(orbit_good hE hN hr hG j).2.weights]; exact hw
  have hWz : ∀ j, ∀ r < o.rank, (CP.orbit E o z j).dec.weights.get [r] = 1 := fun j => by
    rw [(orbit_good hE hN hr hGz j).2.weights]; exact hzw
  have hWc : ∀ j, ∀ r < o.rank, (CMTF.orbit E o s0 j).cp.dec.weights.get [r] = p := fun j => by
    rw [(hgood j).2.2.1.weights]; exact hw0
  have hXj : ∀ j, (CP.orbit E o s j).X = X := fun j => by rw [(orbit_good hE hN hr hG j).2.X, hXs]
  -- the entries
  have hent : ∀ j idx, Valid X.shape idx →
      cpEntry (fun r => (CMTF.orbit E o s0 (j + 1)).cp.dec.weights.get [r]) (CMTF.orbit E o s0 (j + 1)).cp.dec.factorMatrices o.rank idx
        = p * cpEntry (fun r => (CP.orbit E o s (j + 1)).dec.weights.get [r]) (CP.orbit E o s (j + 1)).dec.factorMatrices o.rank idx := by
    intro j idx hv
    have hm := (horb j).factors
    rw [hXj] at hm
    have := cpEntry_moved hC hm hv
    rw [hss, moveIdx_changes hv.length_eq, mapIdx_refl, one_mul] at this
    rw [cpEntry_congr_weights (w' := fun _ => p) (hWc (j + 1)), cpEntry_congr_weights (w' := fun _ => 1) (hWs (j + 1)), (hal (j + 1)).fs,
      ← this, cpEntry, cpEntry, Finset.mul_sum]
    exact Finset.sum_congr rfl fun r _ => by ring
  have hloss : p = 1 → ∀ j, (CMTF.orbit E o s0 (j + 1)).trueLoss o.rank [] = (CP.orbit E o s (j + 1)).trueSSE o.rank := by
    intro hp1 j
    rw [CMTFState.trueLoss, CPState.trueSSE, CPState.trueSSE, (hgood (j + 1)).2.2.1.X, g0.eqX, hXj, coupledErr]
    simp only [List.length_nil, Finset.range_zero, Finset.sum_empty, add_zero]
    exact sumIdx_congr fun idx hv => by rw [hent j idx hv, hp1, one_mul]
  have hprev : p = 1 → ∀ j, (CMTF.orbit E o s0 j).cp.prevSSE = (CP.orbit E o s j).trueSSE o.rank := by
    intro hp1 j
    cases j with
    | zero =>
      show s0.cp.prevSSE = s.trueSSE o.rank
      rw [g0.prev, g0.same rfl, coupledErr, CPState.trueSSE, hXs, hdec rfl]
      simp only [List.length_nil, Finset.range_zero, Finset.sum_empty, add_zero]
      exact (sqErr_congr_weights hw).symm
    | succ j =>
      obtain ⟨x, e, -, -, -, q, -⟩ := cmtf_iteration_ok hE hN hr (hgood j).1 (hgood j).2.1
      rw [(hgood j).2.2.2.1] at e
      obtain rfl := Except.ok.inj e
      rw [q, hloss hp1]
  have hrc : p = 1 → ∀ j, (CMTF.orbit E o s0 j).cp.relChange = (CP.orbit E o s j).relChange := by
    intro hp1 j
    cases j with
    | zero => show s0.cp.relChange = s.relChange; rw [g0.rel, hrel]
    | succ j =>
      obtain ⟨x, e, -, -, -, -, q, -⟩ := cmtf_iteration_ok hE hN hr (hgood j).1 (hgood j).2.1
      rw [(hgood j).2.2.2.1] at e
      obtain rfl := Except.ok.inj e
      rw [q, orbit_relChange hE hN hr hG j, hprev hp1, hloss hp1]
  have hnorm : s.XNorm = s0.cp.XNorm := by
    rw [hG.cached.norm, g0.eqNorm, hXs, ← frobNorm_sq, Real.sqrt_sq (show 0 ≤ frobNorm X from Real.sqrt_nonneg _)]
  have hstop : ∀ j, CMTF.shouldStop o (CMTF.orbit E o s0 j) = CP.shouldStop o (CP.orbit E o s j) := by
    intro j
    obtain ⟨g, q⟩ := orbit_good hE hN hr hG j
    rcases htol with htol | hp1
    · rw [never_stops htol hrl g, cmtf_never_stops htol hrl (hgood j).1]
    · cases j with
      | zero =>
        rw [cmtf_first_iteration (hgood 0).1 (by rw [hrc hp1]; exact hrel) hrl]
        exact (cp_first_iteration hG hrel hrl).symm
      | succ j =>
        rw [CMTF.shouldStop, CP.shouldStop, cmtf_sse_ok (hgood (j + 1)).1, C35_sse g.sized g.cached, bind_ok, bind_ok, hrc hp1,
          hloss hp1, (hgood (j + 1)).2.2.1.XNorm, q.XNorm, hnorm]
  have hst : w.st = CP.orbit E o s k := by
    rw [orbit_iterate hE hN hr k hG] at h4; exact (Except.ok.inj h4).symm
  have hsk : sk = CMTF.orbit E o s0 k' := by
    rw [cmtf_orbit_iterate hE hN hr k' g0.sized hcfg] at g4; exact (Except.ok.inj g4).symm
  have hgo : ∀ j < k, CP.shouldStop o (CP.orbit E o s j) = .ok false := by
    intro j hj
    obtain ⟨x, r1, r2⟩ := h5 j hj
    rw [orbit_iterate hE hN hr j hG] at r1
    rw [Except.ok.inj r1]; exact r2
  have hgo' : ∀ j < k', CMTF.shouldStop o (CMTF.orbit E o s0 j) = .ok false := by
    intro j hj
    obtain ⟨x, r1, r2⟩ := g6 j hj
    rw [cmtf_orbit_iterate hE hN hr j g0.sized hcfg] at r1
    rw [Except.ok.inj r1]; exact r2
  obtain rfl : k' = k := by
    rcases lt_trichotomy k' k with hlt | heq | hlt
    · have := g7 (by omega)
      rw [hsk, hstop, hgo k' hlt] at this
      cases this
    · exact heq
    · have := h6 (by omega)
      rw [hst, ← hstop, hgo' k hlt] at this
      cases this
  have hk0 : k' ≠ 0 := by
    rintro rfl
    have := g7 (by simpa using hb)
    rw [hsk, cmtf_first_iteration (hgood 0).1 g0.rel hrl] at this
    cases this
  obtain ⟨j, rfl⟩ : ∃ j, k' = j + 1 := ⟨k' - 1, by omega⟩
  have hfm := (horb j).factors
  rw [hXj, ← hst, ← (hal (j + 1)).fs, ← hsk] at hfm
  obtain ⟨s', e', -, -, -, -, n1, n2, -⟩ := cmtf_normalize_ok g8 1e-15
  have e'' : CMTF.normalizeComponents sk = .ok s' := e'
  rw [g5] at e''
  obtain rfl := Except.ok.inj e''
  have hskX : sk.cp.X = X := by rw [hsk, (hgood (j + 1)).2.2.1.X, g0.eqX]
  rw [hskX] at n2
  refine ⟨w, w', sk, h1, g1, by rw [g3, h3], g5, ?_, fun hp1 => ?_, fun m F F' hF hF' i hi r hr => ?_, fun r hr => ?_⟩
  · rw [hsk, hst]; exact hent j
  · have g := (orbit_good hE hN hr hG (j + 1)).1
    rw [hsk, hst, cmtf_sse_ok (hgood (j + 1)).1, C35_sse g.sized g.cached, hloss hp1]
  · have hm : m < X.shape.length := by
      obtain ⟨hm, -⟩ := List.getElem?_eq_some_iff.1 hF
      rwa [hwf.factors.length_eq] at hm
    have hm2 : m < sk.cp.dec.factorMatrices.length := by rw [g8.cp.wf.factors.length_eq, hskX]; exact hm
    rw [n2, List.getElem?_zipWith, List.getElem?_eq_getElem hm2, List.getElem?_eq_getElem hm] at hF'
    obtain rfl := Option.some.inj hF'
    have hn : X.shape[m] = X.shape.getD m 0 := by simp [List.getD, hm]
    have hget : ∀ i < X.shape.getD m 0, (sk.cp.dec.factorMatrices[m]).get [i, r] = α m * F.get [i, r] := fun i hi =>
      hfm.get (s := ⟨Equiv.refl ℕ, fun _ => α m⟩) (by simp [hss, changes, hm]) hF (List.getElem?_eq_getElem hm2) hi hr
    rw [normMat, hn, get_ofMat hi hr, hget i hi, colLen_scale (F := F) (c := α m) fun i hi => by rw [hget i hi, mul_comm],
      abs_of_pos (hαp m hm), mul_comm (colLen _ _ _)]
  · obtain ⟨v', ev', -, -, hvw'⟩ := normalizeComponents_ok g8.cp.wf true 1e-15
    rw [n1] at ev'
    obtain rfl := Except.ok.inj ev'
    rw [hvw' r hr, if_pos rfl, hskX, hfm.modeProd_colLen (fun s hs => by
      simp only [hss, changes, List.mem_map, List.mem_range] at hs
      obtain ⟨k, hk, rfl⟩ := hs
      exact ⟨rfl, fun _ => (hαp k hk).le⟩) hr, show coefProd ss r = 1 from hC.prod r hr, one_mul, hsk, hWc _ r hr]

/-- **C126, refuted**: `X = [4]`, rank 1, the start has the factors 2 and 2 and is exact. `CP_ALS` keeps it, with error 0. `CMTF_ALS`
without coupled matrices makes one iteration as well, but its result represents about 16, with an error of about 144. -/
theorem C126_fails {E : Ext} (hE : E.SVDOk) (hN : E.NNLSOk) (hQ : E.QROk) :
    ∃ w w' e, CP.fit E c82.cp (one1 4) (some 1) (.tensor t82) (CP.newObject none none 1 [] none) = .ok () w ∧
      CP.sse w.st = .ok 0 ∧
      CMTF.fit E c82 (one1 4) [] [] (some 1) (.tensor t82) (CMTF.newObject none none 1 [] none) = .ok () w' ∧
      CMTF.sse w'.st = .ok e ∧ 140 < e := by
  have hA : CP.Admissible c82.cp.opts none none (one1 4).shape := by
    refine ⟨by simp [c82], by simp, by simp, by simp, by simp, by simp [c82], by simp, by simp⟩
  have hC : CMTF.Coupled (one1 4).shape [] [] [] [] := ⟨.nil, rfl, by simp⟩
  have ht : t82.WF (one1 4).shape c82.cp.opts.rank := ⟨rfl, .cons rfl (.cons rfl .nil), rfl⟩
  have hi : CP.StartsFrom E c82.cp none none (.tensor t82) (one1 4) t82 := startsFrom_precomputed (by
    show "precomputed".toLower = _
    rw [String.toLower, ← String.toList_inj, String.toList_map]; decide) ht
  have hno : ¬ 0 < (CMTF.method E c82).freq := by show ¬ (0 : Int) < -1; decide
  have hno' : ¬ 0 < (CP.method E c82.cp).freq := by show ¬ (0 : Int) < -1; decide
  obtain ⟨w, hw1, hw2⟩ := C101_exact_start_partial hE hN hQ hA rfl (fun p hp => by simp [c82] at hp) (by decide) hi ht (budget := 1)
    (mi := some 1) (by simp) (loggers := []) (file := none)
    ⟨fun h => absurd h hno', fun h => absurd h hno', fun h => absurd h hno'⟩
    (fun idx hv => by
      match idx, hv with
      | [i, j], hv =>
        obtain ⟨h1, h2, -⟩ := hv
        have h1 : i < 1 := h1
        have h2 : j < 1 := h2
        obtain rfl : i = 0 := by omega
        obtain rfl : j = 0 := by omega
        show (one1 4).get [0, 0] = ∑ r ∈ Finset.range 1, _
        rw [Finset.sum_range_one]
        show _ = (full [1] (1 : ℝ)).get [0] * ((one1 2).get [0, 0] * ((one1 2).get [0, 0] * 1))
        rw [get_one1, get_one1, get_full (by simp)]; norm_num)
    (by simp) (by simp)
  have hw3 := (hw2 (Or.inr fun r hr => by
    have hr : r < 1 := hr
    show (full [1] (1 : ℝ)).get [r] = 1
    rw [get_full (by simpa using hr)])).1
  obtain ⟨u, s0, sk, w', k, h0, hfit, hk1, hit, hk, hnorm, -, hk2, hsk, hs', hX', hY', -, hsse, -⟩ :=
    C83_fit_completes hE hN hQ hA (by simp) hC (fun p hp => by simp [c82] at hp) (by decide) hi ht (budget := 1) (mi := some 1)
      (by simp) (loggers := []) (file := none)
      ⟨fun h => absurd h hno, fun h => absurd h hno, fun h => absurd h hno⟩
  have hstop := cmtf_first_iteration (o := c82.cp.opts) h0.sized h0.rel (by simp [c82])
  have hk' : k = 1 := by
    rcases Nat.lt_or_ge k 1 with hlt | hge
    · obtain rfl : k = 0 := by omega
      have h1 := hk2 (by simp)
      have h2 : sk = s0 := by
        rw [CMTF.iterate] at hk
        injection hk with hk
        exact hk.symm
      rw [h2, hstop] at h1
      injection h1 with h1
      exact absurd h1 (by simp)
    · have : (k : Int) ≤ 1 := by simpa using hk1
      omega
  subst hk'
  refine ⟨w, w', _, hw1, hw3, hfit, hsse, ?_⟩
  -- the decomposition after `_init_fit`
  have hw0 : s0.cp.dec.weights.get [0] = 4 := by
    rw [h0.startWeights (r := 0) (by simp [c82])]
    show colLen (one1 2) 1 0 * (colLen (one1 2) 1 0 * 1) = 4
    rw [colLen_one, get_one1, abs_two]; norm_num
  set b0 : ℝ := 2 / (2 + 1e-15) with hb0
  have hb1 : 1 / 2 ≤ b0 ∧ b0 ≤ 1 := by constructor <;> norm_num [hb0]
  obtain ⟨A, B, hAB, hB⟩ : ∃ A B, s0.cp.dec.factorMatrices = [A, B] ∧ B.get [0, 0] = b0 := by
    obtain ⟨v, e, -, hf, -⟩ := normalizeComponents_ok h0.wf true 1e-15
    have := h0.normalised
    rw [e] at this
    injection this with this
    rw [h0.same rfl] at hf
    refine ⟨_, _, by rw [← this, hf]; rfl, ?_⟩
    show (normMat (one1 2) 1 1 1e-15).get [0, 0] = b0
    rw [normMat, get_ofMat (by norm_num) (by norm_num), colLen_one, get_one1, abs_two]
  clear_value b0
  have hb00 : b0 ≠ 0 := fun h => by have := hb1.1; rw [h] at this; norm_num at this
  -- the iteration
  obtain ⟨s1, F, G, e1, hsp, hFG, hoF, hoG⟩ := cmtf_iteration_free hE h0.sized (h0.cfg hA (by simp))
    (h0.free hA (by simp) rfl rfl) (by rw [h0.eqX]; rfl) hAB
  obtain rfl : s1 = sk := by
    rw [CMTF.iterate, e1, bind_ok, CMTF.iterate] at hk
    injection hk
  have hloss : ∀ Z W : NDArray ℝ, sqErr s0.cp.X (fun _ => 1) [Z, W] 1 + firstErr [Z, W] s0.Ys s0.V [] 1
      = (4 - Z.get [0, 0] * W.get [0, 0]) ^ 2 := by
    intro Z W
    have hfil : (Finset.range ([] : List ℕ).length).filter (IsFirst []) = ∅ := by decide
    rw [firstErr, hfil, Finset.sum_empty, h0.eqX, sqErr_one rfl]
    simp
  have h1 := hoF (one1 (4 / b0)) (by rw [h0.eqX]; rfl)
  change sqErr s0.cp.X (fun _ => 1) [F, B] 1 + firstErr [F, B] s0.Ys s0.V [] 1
    ≤ sqErr s0.cp.X (fun _ => 1) [one1 (4 / b0), B] 1 + firstErr [one1 (4 / b0), B] s0.Ys s0.V [] 1 at h1
  rw [hloss, hloss, hB, get_one1, div_mul_cancel₀ _ hb00, sub_self] at h1
  set a := F.get [0, 0] with ha
  have hab0 : a * b0 = 4 := by
    have h3 : (4 - a * b0) ^ 2 = 0 := le_antisymm (by linarith) (sq_nonneg _)
    have := pow_eq_zero_iff (two_ne_zero) |>.1 h3
    linarith
  have ha1 : 4 ≤ a ∧ a ≤ 8 := by constructor <;> nlinarith [hb1.1, hb1.2]
  have h2 := hoG (one1 (4 / a)) (by rw [h0.eqX]; rfl)
  change sqErr s0.cp.X (fun _ => 1) [F, G] 1 + firstErr [F, G] s0.Ys s0.V [] 1
    ≤ sqErr s0.cp.X (fun _ => 1) [F, one1 (4 / a)] 1 + firstErr [F, one1 (4 / a)] s0.Ys s0.V [] 1 at h2
  rw [hloss, hloss, get_one1, ← ha, mul_div_cancel₀ _ (by linarith [ha1.1]), sub_self] at h2
  set b := G.get [0, 0] with hb
  have hab : a * b = 4 := by
    have h3 : (4 - a * b) ^ 2 = 0 := le_antisymm (by linarith) (sq_nonneg _)
    have := pow_eq_zero_iff (two_ne_zero) |>.1 h3
    linarith
  obtain ⟨ha2, ha3⟩ := ha1
  have hb2 : 0 < b := by
    by_contra h
    nlinarith [mul_nonneg (show 0 ≤ a by linarith) (show 0 ≤ -b by linarith)]
  have hb3 : b ≤ 1 := by nlinarith
  -- the final normalisation
  obtain ⟨s2, X', e2, hs2, -, -, hct, hXs, hXg, -⟩ := C60_normalisation hsk (eps := 1e-15) (by norm_num)
  obtain rfl : s2 = w'.st := by
    rw [hnorm] at e2
    injection e2 with h
    exact h.symm
  have hrec : 15.9 ≤ X'.get [0, 0] := by
    rw [hXg [0, 0] (by rw [hsp.X, h0.eqX]; exact ⟨by norm_num, by norm_num, trivial⟩)]
    show 15.9 ≤ ∑ r ∈ Finset.range 1, _
    rw [Finset.sum_range_one, hsp.weights, hw0, hFG, hsp.X, h0.eqX]
    show 15.9 ≤ colLen F 1 0 / (colLen F 1 0 + 1e-15) * (colLen G 1 0 / (colLen G 1 0 + 1e-15) * 1) * (4 * (a * (b * 1)))
    rw [colLen_one, colLen_one, ← ha, ← hb, abs_of_pos (by linarith), abs_of_pos hb2, mul_one, mul_one, hab,
      div_mul_div_comm, hab, div_mul_eq_mul_div, le_div_iff₀ (by nlinarith)]
    nlinarith
  have hend : (4 - X'.get [0, 0]) ^ 2 ≤ w'.st.trueLoss 1 [] := by
    have hs1 : w'.st.Sized 1 [] [] := hs'
    have h3 := constructTensor_eq hs1.cp.wf hs1.cp.order
    rw [hct] at h3
    injection h3 with h3
    rw [CMTFState.trueLoss, CPState.trueSSE, h3]
    refine le_add_of_le_of_nonneg (le_of_eq ?_) (Finset.sum_nonneg fun _ _ => matErr_nonneg _ _ _ _)
    rw [hX', get_ofFn (show Valid (one1 4).shape [0, 0] from ⟨by norm_num, by norm_num, trivial⟩), sqErr]
    simp
  show 140 < w'.st.trueLoss 1 []
  nlinarith

/-- The start of the example below: one component with the columns `(3/5, 4/5)` and `(1, 0)`, both of length one. -/
def t126 : KruskalTensor :=
  ⟨1, [ofMat 2 1 fun i _ => if i = 0 then 3 / 5 else 4 / 5, ofMat 2 1 fun i _ => if i = 0 then 1 else 0], full [1] 1⟩

/-- The hypotheses of `C126_alone_partial` hold for columns of length one, and a `convergence_tol` that is positive. -/
example {E : Ext} (hE : E.SVDOk) (hN : E.NNLSOk) (hQ : E.QROk) :
    ∃ w w' sk, CP.fit E ⟨⟨1, 1e-8, 0, none⟩, "precomputed", none, false, [], fun _ _ _ _ => 1, id, fun _ => none⟩ diag21 (some 50)
        (.tensor t126) (CP.newObject none none 1 [] none) = .ok () w ∧
      CMTF.fit E ⟨⟨⟨1, 1e-8, 0, none⟩, "precomputed", none, false, [], fun _ _ _ _ => 1, id, fun _ => none⟩, [], fun _ _ _ => 1,
        fun _ _ _ => 1⟩ diag21 [] [] (some 50) (.tensor t126) (CMTF.newObject none none 1 [] none) = .ok () w' ∧ w'.it = w.it ∧
      CMTF.normalizeComponents sk = .ok w'.st ∧ CMTF.sse sk = CP.sse w.st := by
  have ht : t126.WF diag21.shape 1 := ⟨rfl, .cons rfl (.cons rfl .nil), rfl⟩
  obtain ⟨w, w', sk, h1, h2, h3, h4, -, h5, -⟩ := C126_alone_partial hE hN hQ
    (c := ⟨⟨⟨1, 1e-8, 0, none⟩, "precomputed", none, false, [], fun _ _ _ _ => 1, id, fun _ => none⟩, [], fun _ _ _ => 1,
      fun _ _ _ => 1⟩) (X := diag21)
    ⟨by norm_num, by simp [diag21], by simp [diag21], by simp, by simp, by simp, by simp, by simp⟩ rfl (by norm_num)
    (fun p hp => by simp at hp) (fun p hp => by simp at hp) (by decide)
    (startsFrom_precomputed (by
      show "precomputed".toLower = _
      rw [String.toLower, ← String.toList_inj, String.toList_map]; decide) ht) ht (ν := fun _ => 1) (p := 1)
    (fun m F hF r hr => by
      have hr0 : r < 1 := hr
      obtain rfl : r = 0 := by omega
      match m, hF with
      | 0, hF =>
        obtain rfl := Option.some.inj hF
        show colLen _ 2 0 = 1
        rw [colLen, Finset.sum_range_succ, Finset.sum_range_one, get_ofMat (by norm_num) (by norm_num),
          get_ofMat (by norm_num) (by norm_num)]
        norm_num
      | 1, hF =>
        obtain rfl := Option.some.inj hF
        show colLen _ 2 0 = 1
        rw [colLen, Finset.sum_range_succ, Finset.sum_range_one, get_ofMat (by norm_num) (by norm_num),
          get_ofMat (by norm_num) (by norm_num)]
        norm_num)
    (by simp) (Or.inr rfl) (budget := 1) (mi := some 50) (by simp) (loggers := []) (loggers' := []) (file := none) (file' := none)
    ⟨fun h => absurd h (show ¬ (0 : Int) < -1 by decide), fun h => absurd h (show ¬ (0 : Int) < -1 by decide),
      fun h => absurd h (show ¬ (0 : Int) < -1 by decide)⟩
    ⟨fun h => absurd h (show ¬ (0 : Int) < -1 by decide), fun h => absurd h (show ¬ (0 : Int) < -1 by decide),
      fun h => absurd h (show ¬ (0 : Int) < -1 by decide)⟩
  exact ⟨w, w', sk, h1, h2, h3, h4, h5 rfl⟩

end

end TK
