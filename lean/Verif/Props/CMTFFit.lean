import Verif.Props.CMTFFails
import Verif.Props.CPFit

/-!
# Whole fits of `CMTF_ALS`: C56 (CMTF part), C58, C59, C82, C83
-/

namespace TK
open NDArray
open EStateM (Result)
open Fit

noncomputable section

/-! ## The start -/

/-- The coupled matrices fit to the tensor: matrix `i` is coupled to mode `ms[i]` and has `qs[i]` columns. -/
structure CMTF.Coupled (shape : List ℕ) (Ys : List (NDArray ℝ)) (modes : List Int) (ms qs : List ℕ) : Prop where
  modes : List.Forall₂ (fun n m => IsMode n shape.length m) modes ms
  len : Ys.length = ms.length
  shapeY : ∀ i < ms.length, (Ys.getD i noArr).shape = [shape.getD (ms.getD i 0) 0, qs.getD i 0]

/-- A drawn matrix with normalised columns. -/
def drawnV (d : ℕ → ℕ → ℝ) (q R : ℕ) : NDArray ℝ := ofMat q R fun j r => d j r / colLen (ofMat q R d) q r

/-- The flag of a mode. -/
def flagOf (nonNeg : Option (List Bool)) (m : ℕ) : Bool := (nonNeg.getD []).getD m false

theorem initFlag_ok {nonNeg : Option (List Bool)} {d m : ℕ} {mode : Int} (hnn : ∀ l, nonNeg = some l → l.length = d)
    (h : IsMode mode d m) : CMTF.initFlag nonNeg mode = .ok (flagOf nonNeg m) := by
  cases nonNeg with
  | none => rfl
  | some l =>
    rw [← hnn l rfl] at h
    rw [CMTF.initFlag, pyGet_ok h.norm, flagOf, Option.getD_some, getD_of_lt h.1]

theorem initCoupledLoop_ok {c : CMTF.Config} {nonNeg : Option (List Bool)} {Ys : List (NDArray ℝ)} {shape : List ℕ} {n : ℕ → ℕ}
    {q : ℕ → ℕ} (hnn : ∀ l, nonNeg = some l → l.length = shape.length) : ∀ {modes : List Int} {ms : List ℕ} {i : ℕ},
    List.Forall₂ (fun n m => IsMode n shape.length m) modes ms → i + ms.length ≤ Ys.length →
    (∀ j < ms.length, (Ys.getD (i + j) noArr).shape = [n j, q (i + j)]) →
    ∃ Vs, CMTF.initCoupledLoop c nonNeg Ys i modes = .ok Vs ∧ Vs.length = ms.length ∧
      ∀ j < ms.length, Vs.getD j noArr
        = drawnV (if flagOf nonNeg (ms.getD j 0) then c.drawU (i + j) else c.drawN (i + j)) (q (i + j)) c.cp.opts.rank := by
  intro modes
  induction modes generalizing n with
  | nil =>
    intro ms i hm _ _
    cases hm
    exact ⟨[], rfl, rfl, by simp⟩
  | cons mode modes ih =>
    intro ms i hm hlen hY
    cases hm with
    | cons h1 h2 =>
      rename_i m ms
      simp only [List.length_cons] at hlen hY
      have hi : i < Ys.length := by omega
      have hY0 := hY 0 (by omega)
      rw [Nat.add_zero, getD_of_lt hi] at hY0
      obtain ⟨Vs, e, hl, hV⟩ := ih (n := fun j => n (j + 1)) (i := i + 1) h2 (by omega) (fun j hj => by
        have := hY (j + 1) (by omega)
        rwa [show i + (j + 1) = i + 1 + j by omega] at this)
      have hflag := initFlag_ok hnn h1
      set d := (if flagOf nonNeg m then c.drawU i else c.drawN i) with hd
      refine ⟨drawnV d (q i) c.cp.opts.rank :: Vs, ?_, by simp [hl], fun j hj => ?_⟩
      · have hsh : (ofMat (q i) c.cp.opts.rank d).shape = [q i, c.cp.opts.rank] := rfl
        have hdiv : zipB (· / ·) (ofMat (q i) c.cp.opts.rank d) (colNorms (ofMat (q i) c.cp.opts.rank d))
            = .ok (drawnV d (q i) c.cp.opts.rank) := by
          rw [zipB_mat_vec _ (shape_colNorms hsh) hsh]
          refine congrArg Except.ok (ofMat_congr fun k hk r hr => ?_)
          rw [colNorms_get hsh hr, get_ofMat hk hr]
        rw [CMTF.initCoupledLoop, pyGet_ok (k := i) (norm_nat hi), bind_ok, cols_ok hY0, bind_ok]
        rw [hflag, bind_ok]
        simp only [← hd]
        rw [hdiv, bind_ok, assignAll_same (A := ofMat (q i) c.cp.opts.rank d) (B := drawnV d (q i) c.cp.opts.rank) rfl, bind_ok, e]
        rfl
      · match j with
        | 0 => simp [hd]
        | j + 1 =>
          have := hV j (by simpa using hj)
          rw [show i + 1 + j = i + (j + 1) by omega] at this
          simpa using this

/-- Orthonormalisation of the start, as in `_init_fit`. -/
theorem orthonormalise_init {E : Ext} (hQ : E.QROk) {orth : Option (List Bool)} {shape : List ℕ} {R : ℕ} {fs : List (NDArray ℝ)}
    (hf : Factors fs shape R)
    (hol : ∀ l, orth = some l → l.length ≤ shape.length ∧ ∀ k : ℕ, l[k]? = some true → R ≤ shape.getD k 0) :
    ∃ fs', CP.orthonormalise E 0 (orth.getD (List.replicate shape.length false)) fs = .ok fs' ∧ Factors fs' shape R ∧
      (orth = none → fs' = fs) := by
  cases ho : orth with
  | none =>
    obtain ⟨fs', e, h1, -, h3⟩ := orthonormalise_ok hQ (bs := List.replicate shape.length false) (mode := 0) hf
      (by simp) (fun k hk => by simp [List.getElem?_replicate] at hk)
    refine ⟨fs', e, h1, fun _ => ?_⟩
    apply List.ext_getElem?
    intro j
    exact h3 j fun k _ hk => by simp [List.getElem?_replicate] at hk
  | some l =>
    obtain ⟨a, b⟩ := hol l ho
    obtain ⟨fs', e, h1, -, -⟩ := orthonormalise_ok hQ (bs := l) (mode := 0) hf (by simpa using a)
      (fun k hk => by simpa using b k hk)
    exact ⟨fs', e, h1, by simp⟩

/-- What the state is after `_init_fit`, when `init_components` gave the decomposition `t`: `u` is `t` with unit weights (and
orthonormal columns in the constrained modes), whose SSE is stored; then `u` is normalised. -/
structure CMTF.Started (c : CMTF.Config) (nonNeg orth : Option (List Bool)) (X : NDArray ℝ) (Ys : List (NDArray ℝ))
    (modes : List Int) (ms qs : List ℕ) (t u : KruskalTensor) (s : CMTFState) : Prop where
  sized : s.Sized c.cp.opts.rank ms qs
  eqX : s.cp.X = X
  eqNorm : s.cp.XNorm = frobNorm X
  eqYs : s.Ys = Ys
  eqModes : s.modes = modes
  eqNonNeg : s.cp.nonNeg = some (nonNeg.getD (List.replicate X.shape.length false))
  eqOrth : s.cp.orth = some (orth.getD (List.replicate X.shape.length false))
  rel : s.cp.relChange = .pinf
  V : ∀ i < ms.length, s.V.getD i noArr
    = drawnV (if flagOf nonNeg (ms.getD i 0) then c.drawU i else c.drawN i) (qs.getD i 0) c.cp.opts.rank
  wf : u.WF X.shape c.cp.opts.rank
  weights : ∀ r < c.cp.opts.rank, u.weights.get [r] = 1
  same : orth = none → u.factorMatrices = t.factorMatrices
  normalised : u.normalizeComponents true 1e-15 = .ok s.cp.dec
  prev : s.cp.prevSSE = sqErr X (fun _ => 1) u.factorMatrices c.cp.opts.rank
    + coupledErr u.factorMatrices Ys s.V ms c.cp.opts.rank

/-- The object after `set_coupled_matrices`, `set_target` and `init_components`. -/
def CMTF.prepared (c : CMTF.Config) (nonNeg orth : Option (List Bool)) (X : NDArray ℝ) (Ys : List (NDArray ℝ)) (modes : List Int)
    (t : KruskalTensor) (Vs : List (NDArray ℝ)) : CMTFState :=
  ⟨{ CP.fresh nonNeg orth with X := X, XNorm := frobNorm X, dec := t }, Ys, modes, CMTF.mapFrom 0 modes [], Vs,
    modes.map fun _ => full [c.cp.opts.rank] 1⟩

theorem cmtf_initRest_ok {E : Ext} (hQ : E.QROk) {c : CMTF.Config} {nonNeg orth : Option (List Bool)} {X : NDArray ℝ}
    (hA : CP.Admissible c.cp.opts nonNeg orth X.shape) {Ys : List (NDArray ℝ)} {modes : List Int} {ms qs : List ℕ}
    (hC : CMTF.Coupled X.shape Ys modes ms qs) {t : KruskalTensor} (ht : t.WF X.shape c.cp.opts.rank) {Vs : List (NDArray ℝ)}
    (hl : Vs.length = ms.length) (hV : ∀ i < ms.length, Vs.getD i noArr
      = drawnV (if flagOf nonNeg (ms.getD i 0) then c.drawU i else c.drawN i) (qs.getD i 0) c.cp.opts.rank) :
    ∃ u s, CMTF.initRest E (CMTF.prepared c nonNeg orth X Ys modes t Vs) = .ok s ∧
      CMTF.Started c nonNeg orth X Ys modes ms qs t u s := by
  have hlen : t.resetWeights.factorMatrices.length = X.shape.length := ht.factors.length_eq
  obtain ⟨fs', e, h1, h2⟩ := orthonormalise_init (E := E) hQ (orth := orth) (fs := t.resetWeights.factorMatrices) ht.factors
    (fun l hl => ⟨(hA.orthLen l hl).le, hA.orthRows l hl⟩)
  set u : KruskalTensor := { t.resetWeights with factorMatrices := fs' } with hu
  have hwf : u.WF X.shape c.cp.opts.rank := ⟨ht.rank, h1, ht.weights⟩
  have hw1 : ∀ r < c.cp.opts.rank, u.weights.get [r] = 1 := fun r hr => get_resetWeights ht.weights hr
  set s1 : CMTFState := ⟨{ CP.fresh nonNeg orth with
    X := X
    XNorm := frobNorm X
    dec := u
    nonNeg := some (nonNeg.getD (List.replicate X.shape.length false))
    orth := some (orth.getD (List.replicate X.shape.length false))
    relChange := .pinf }, Ys, modes, CMTF.mapFrom 0 modes [], Vs, modes.map fun _ => full [c.cp.opts.rank] 1⟩ with hs1
  have hS : s1.Sized c.cp.opts.rank ms qs :=
    ⟨⟨hwf, hA.order, hA.nonempty⟩, hC.modes, rfl, hC.len, hl, by simp [hs1, hC.modes.length_eq], hC.shapeY,
      fun i hi => by show (Vs.getD i noArr).shape = _; rw [hV i hi]; rfl⟩
  obtain ⟨v, e2, wfv, -, -⟩ := normalizeComponents_ok hwf true 1e-15
  refine ⟨u, { s1 with cp := { s1.cp with prevSSE := s1.trueLoss c.cp.opts.rank ms, cache := none, dec := v } }, ?_,
    { sized := ⟨⟨wfv, hA.order, hA.nonempty⟩, hC.modes, rfl, hC.len, hl, hS.lenW, hC.shapeY, hS.shapeV⟩
      eqX := rfl, eqNorm := rfl, eqYs := rfl, eqModes := rfl, eqNonNeg := rfl, eqOrth := rfl, rel := rfl
      V := hV, wf := hwf, weights := hw1, same := h2, normalised := e2, prev := ?_ }⟩
  · rw [CMTF.initRest]
    simp only [CMTF.prepared, hlen]
    show (CP.orthonormalise E 0 (orth.getD (List.replicate X.shape.length false)) t.resetWeights.factorMatrices >>= _) = _
    rw [e, bind_ok]
    show (CMTF.sse s1 >>= _) = _
    rw [cmtf_sse_ok hS, bind_ok]
    show (u.normalizeComponents true 1e-15 >>= _) = _
    rw [e2, bind_ok]
    rfl
  · show s1.trueLoss _ _ = _
    rw [CMTFState.trueLoss, CPState.trueSSE]
    congr 1
    exact sqErr_congr_weights fun r hr => hw1 r hr

/-- The first part of a fit of a new `CMTF_ALS` object, with the start as the result of the initialisation. -/
theorem cmtf_fit_unfold_start {E : Ext} (hQ : E.QROk) {c : CMTF.Config} {nonNeg orth : Option (List Bool)} {X : NDArray ℝ}
    (hA : CP.Admissible c.cp.opts nonNeg orth X.shape) {Ys : List (NDArray ℝ)} {modes : List Int} {ms qs : List ℕ}
    (hC : CMTF.Coupled X.shape Ys modes ms qs) {arg : InitArg KruskalTensor} {t : KruskalTensor}
    (hi : CP.StartsFrom E c.cp nonNeg orth arg X t) (ht : t.WF X.shape c.cp.opts.rank) :
    ∃ u s0, CMTF.Started c nonNeg orth X Ys modes ms qs t u s0 ∧ (∃ Vs, CMTF.initCoupledLoop c nonNeg Ys 0 modes = .ok Vs ∧
      CMTF.initRest E (CMTF.prepared c nonNeg orth X Ys modes t Vs) = .ok s0) ∧ ∀ (mi : Option Int) budget loggers file,
      CMTF.fit E c X Ys modes mi arg (CMTF.newObject nonNeg orth budget loggers file)
        = run (CMTF.method E c) ⟨s0, 0, mi.getD budget, loggers, file⟩ := by
  obtain ⟨Vs, e1, hl, hV⟩ := initCoupledLoop_ok (c := c) (nonNeg := nonNeg) (Ys := Ys) (shape := X.shape)
    (n := fun j => X.shape.getD (ms.getD j 0) 0) (q := fun j => qs.getD j 0) hA.nonNegLen (i := 0) hC.modes
    (by simpa using hC.len.ge) (fun j hj => by simpa using hC.shapeY j hj)
  simp only [Nat.zero_add] at hV
  obtain ⟨u, s0, e0, h0⟩ := cmtf_initRest_ok hQ hA hC ht hl hV
  refine ⟨u, s0, h0, ⟨Vs, e1, e0⟩, fun mi budget loggers file => ?_⟩
  have hzoom : CMTF.zoom (CP.initComponents E c.cp arg)
      ⟨⟨{ CP.fresh nonNeg orth with X := X, XNorm := frobNorm X }, Ys, modes, CMTF.mapFrom 0 modes [], [], []⟩, 0, budget, loggers, file⟩
      = .ok () ⟨⟨{ CP.fresh nonNeg orth with X := X, XNorm := frobNorm X, dec := t }, Ys, modes, CMTF.mapFrom 0 modes [], [], []⟩,
        0, budget, loggers, file⟩ := by
    unfold CMTF.zoom
    have := hi budget loggers file
    have this' : CP.initComponents E c.cp arg ⟨{ CP.fresh nonNeg orth with X := X, XNorm := frobNorm X }, 0, budget, loggers, file⟩
      = .ok () ⟨{ CP.fresh nonNeg orth with X := X, XNorm := frobNorm X, dec := t }, 0, budget, loggers, file⟩ := this
    simp only [this']
  have hcoup : CMTF.initCoupled c
      ⟨{ CP.fresh nonNeg orth with X := X, XNorm := frobNorm X, dec := t }, Ys, modes, CMTF.mapFrom 0 modes [], [], []⟩
      = .ok (CMTF.prepared c nonNeg orth X Ys modes t Vs) := by
    rw [CMTF.initCoupled]
    show (CMTF.initCoupledLoop c nonNeg Ys 0 modes >>= _) = _
    rw [e1]; rfl
  have hcomp : CMTF.initComponents E c arg
      ⟨⟨{ CP.fresh nonNeg orth with X := X, XNorm := frobNorm X }, Ys, modes, CMTF.mapFrom 0 modes [], [], []⟩, 0, budget, loggers, file⟩
      = .ok () ⟨CMTF.prepared c nonNeg orth X Ys modes t Vs, 0, budget, loggers, file⟩ := by
    rw [CMTF.initComponents, bind_of_ok hzoom]
    exact modifySt_ok hcoup
  unfold CMTF.fit Fit.fit Fit.initFit
  simp only [bind_assoc]
  rw [bind_of_ok (modifySt_ok (w := CMTF.newObject nonNeg orth budget loggers file)
      (s := ⟨CP.fresh nonNeg orth, Ys, modes, CMTF.mapFrom 0 modes [], [], []⟩) rfl), bind_of_ok (modify_def _ _)]
  refine (bind_of_ok (x := modifySt (CMTF.setTarget X))
    (modifySt_ok (w := ⟨⟨CP.fresh nonNeg orth, Ys, modes, CMTF.mapFrom 0 modes [], [], []⟩, 0, budget, loggers, file⟩)
      (s := ⟨{ CP.fresh nonNeg orth with X := X, XNorm := frobNorm X }, Ys, modes, CMTF.mapFrom 0 modes [], [], []⟩) rfl)).trans ?_
  refine (bind_of_ok hcomp).trans ?_
  cases mi with
  | none =>
    rw [bind_of_ok (show setMaxIts none _ = .ok () _ from rfl), bind_of_ok (modifySt_ok
      (w := ⟨CMTF.prepared c nonNeg orth X Ys modes t Vs, 0, budget, loggers, file⟩) e0)]
    rfl
  | some v =>
    rw [bind_of_ok (show setMaxIts (some v) _ = .ok () _ from rfl), bind_of_ok (modifySt_ok
      (w := ⟨CMTF.prepared c nonNeg orth X Ys modes t Vs, 0, v, loggers, file⟩) e0)]
    rfl

/-- The first part of a fit of a new `CMTF_ALS` object. -/
theorem cmtf_fit_unfold {E : Ext} (hQ : E.QROk) {c : CMTF.Config} {nonNeg orth : Option (List Bool)} {X : NDArray ℝ}
    (hA : CP.Admissible c.cp.opts nonNeg orth X.shape) {Ys : List (NDArray ℝ)} {modes : List Int} {ms qs : List ℕ}
    (hC : CMTF.Coupled X.shape Ys modes ms qs) {arg : InitArg KruskalTensor} {t : KruskalTensor}
    (hi : CP.StartsFrom E c.cp nonNeg orth arg X t) (ht : t.WF X.shape c.cp.opts.rank) :
    ∃ u s0, CMTF.Started c nonNeg orth X Ys modes ms qs t u s0 ∧ ∀ (mi : Option Int) budget loggers file,
      CMTF.fit E c X Ys modes mi arg (CMTF.newObject nonNeg orth budget loggers file)
        = run (CMTF.method E c) ⟨s0, 0, mi.getD budget, loggers, file⟩ := by
  obtain ⟨u, s0, h0, -, h⟩ := cmtf_fit_unfold_start hQ hA hC hi ht
  exact ⟨u, s0, h0, h⟩

theorem CMTF.Started.conf {c : CMTF.Config} {nonNeg orth : Option (List Bool)} {X : NDArray ℝ} {Ys : List (NDArray ℝ)}
    {modes : List Int} {ms qs : List ℕ} {t u : KruskalTensor} {s : CMTFState} (h : CMTF.Started c nonNeg orth X Ys modes ms qs t u s)
    (hA : CP.Admissible c.cp.opts nonNeg orth X.shape) : ∀ m < X.shape.length, ∃ on ridge,
      s.cp.ModeConfig c.cp.opts m (flagOf nonNeg m) on ridge ∧ (orth = none → on = false) ∧
        (c.cp.opts.ridgePenalties = none → ridge = none) := by
  intro m hm
  have hlen2 : (orth.getD (List.replicate X.shape.length false)).length = X.shape.length := by
    cases hq : orth with
    | none => simp
    | some l => simpa using hA.orthLen l hq
  obtain ⟨ridge, hridge, hrn⟩ : ∃ ridge, ((c.cp.opts.ridgePenalties = none ∧ ridge = none) ∨
      ∃ ps l, c.cp.opts.ridgePenalties = some ps ∧ ps[m]? = some l ∧ ridge = some l) ∧
      (c.cp.opts.ridgePenalties = none → ridge = none) := by
    cases hq : c.cp.opts.ridgePenalties with
    | none => exact ⟨none, Or.inl ⟨rfl, rfl⟩, fun _ => rfl⟩
    | some ps =>
      have := hA.ridgeLen ps hq
      exact ⟨_, Or.inr ⟨ps, ps[m]'(by omega), rfl, List.getElem?_eq_getElem _, rfl⟩, by simp⟩
  refine ⟨_, ridge, ⟨⟨_, h.eqNonNeg, ?_⟩, ⟨_, h.eqOrth, List.getElem?_eq_getElem (by omega)⟩, hridge⟩, ?_, hrn⟩
  · cases hq : nonNeg with
    | none => simp [flagOf, List.getElem?_replicate, hm]
    | some l =>
      have := hA.nonNegLen l hq
      rw [Option.getD_some, flagOf, Option.getD_some, getD_of_lt (by omega)]
      exact List.getElem?_eq_getElem _
  · rintro rfl
    simp

theorem CMTF.Started.cfg {c : CMTF.Config} {nonNeg orth : Option (List Bool)} {X : NDArray ℝ} {Ys : List (NDArray ℝ)}
    {modes : List Int} {ms qs : List ℕ} {t u : KruskalTensor} {s : CMTFState} (h : CMTF.Started c nonNeg orth X Ys modes ms qs t u s)
    (hA : CP.Admissible c.cp.opts nonNeg orth X.shape)
    (hnn : ∀ l, nonNeg = some l → l = List.replicate X.shape.length false) : s.Cfg c.cp.opts := by
  have hg : nonNeg.getD (List.replicate X.shape.length false) = List.replicate X.shape.length false := by
    cases hq : nonNeg with
    | none => rfl
    | some l => exact hnn l hq
  refine ⟨by rw [h.eqNonNeg, h.eqX, hg], fun m hm => ?_⟩
  rw [h.eqX] at hm
  obtain ⟨on, ridge, hc, -⟩ := h.conf hA m hm
  have hf : flagOf nonNeg m = false := by
    cases hq : nonNeg with
    | none => rfl
    | some l =>
      rw [hnn l hq, flagOf, Option.getD_some]
      simp [List.getD, hm]
  rw [hf] at hc
  exact ⟨on, ridge, hc⟩

theorem CMTF.Started.free {c : CMTF.Config} {nonNeg : Option (List Bool)} {X : NDArray ℝ} {Ys : List (NDArray ℝ)}
    {modes : List Int} {ms qs : List ℕ} {t u : KruskalTensor} {s : CMTFState} (h : CMTF.Started c nonNeg none X Ys modes ms qs t u s)
    (hA : CP.Admissible c.cp.opts nonNeg none X.shape)
    (hnn : ∀ l, nonNeg = some l → l = List.replicate X.shape.length false) (hr : c.cp.opts.ridgePenalties = none)
    (hp : modes = ms.map fun m : ℕ => (m : Int)) : s.Free c.cp.opts ms := by
  refine ⟨by rw [CMTFState.Plain, h.eqModes]; exact hp, fun m hm => ?_⟩
  rw [h.eqX] at hm
  obtain ⟨on, ridge, hc, h1, h2⟩ := h.conf hA m hm
  have hf : flagOf nonNeg m = false := by
    cases hq : nonNeg with
    | none => rfl
    | some l =>
      rw [hnn l hq, flagOf, Option.getD_some]
      simp [List.getD, hm]
  rw [hf, h1 rfl, h2 hr] at hc
  exact hc

/-! ## The run -/

/-- The state after `j` iterations (an iteration that would raise leaves the state as it is; by `cmtf_orbit_step` this does not
happen). -/
def CMTF.orbit (E : Ext) (o : CPOpts) (s : CMTFState) : ℕ → CMTFState
  | 0 => s
  | j + 1 => match CMTF.iteration E o (CMTF.orbit E o s j) with
    | .ok s' => s'
    | .error _ => CMTF.orbit E o s j

theorem cmtf_orbit_good {E : Ext} (hE : E.SVDOk) (hN : E.NNLSOk) {o : CPOpts} (hr : 0 < o.rank) {ms qs : List ℕ} {s : CMTFState}
    (h : s.Sized o.rank ms qs) (hc : s.Cfg o) : ∀ j, (CMTF.orbit E o s j).Sized o.rank ms qs ∧ (CMTF.orbit E o s j).Cfg o ∧
      s.SameProblem (CMTF.orbit E o s j) ∧ CMTF.iteration E o (CMTF.orbit E o s j) = .ok (CMTF.orbit E o s (j + 1)) ∧
      (∀ i, ¬ FirstOf s.modes i → (CMTF.orbit E o s j).V.getD i noArr = s.V.getD i noArr) ∧
      (s.Free o ms → (CMTF.orbit E o s j).fitLoss o.rank ms ≤ s.fitLoss o.rank ms)
  | 0 => by
    refine ⟨h, hc, .refl s, ?_, fun _ _ => rfl, fun _ => le_rfl⟩
    obtain ⟨s', e, -⟩ := cmtf_iteration_ok hE hN hr h hc
    show CMTF.iteration E o s = .ok (match CMTF.iteration E o s with | .ok s' => s' | .error _ => s)
    rw [e]
  | j + 1 => by
    obtain ⟨h1, h2, h3, -, h5, h6⟩ := cmtf_orbit_good hE hN hr h hc j
    obtain ⟨s', e, g1, g2, g3, -, -, -, g7, g8⟩ := cmtf_iteration_ok hE hN hr h1 h2
    have hs : CMTF.orbit E o s (j + 1) = s' := by rw [CMTF.orbit, e]
    rw [hs]
    refine ⟨g1, g3, h3.trans g2, ?_, fun i hi => ?_, fun hf => ?_⟩
    · obtain ⟨s2, e2, -⟩ := cmtf_iteration_ok hE hN hr g1 g3
      rw [CMTF.orbit, hs, e2]
    · rw [g7 i (by rw [h3.modes]; exact hi), h5 i hi]
    · exact (g8 (hf.sameProblem h3)).trans (h6 hf)

theorem cmtf_orbit_iterate {E : Ext} (hE : E.SVDOk) (hN : E.NNLSOk) {o : CPOpts} (hr : 0 < o.rank) {ms qs : List ℕ} :
    ∀ (j : ℕ) {s : CMTFState}, s.Sized o.rank ms qs → s.Cfg o → CMTF.iterate E o j s = .ok (CMTF.orbit E o s j) := by
  have hshift : ∀ (j : ℕ) (s : CMTFState), CMTF.orbit E o s (j + 1) = CMTF.orbit E o (CMTF.orbit E o s 1) j := by
    intro j s
    induction j with
    | zero => rfl
    | succ j ih => rw [CMTF.orbit, ih]; rfl
  intro j
  induction j with
  | zero => intro s _ _; rfl
  | succ j ih =>
    intro s h hc
    obtain ⟨-, -, -, h0, -⟩ := cmtf_orbit_good hE hN hr h hc 0
    obtain ⟨h1, h2, -⟩ := cmtf_orbit_good hE hN hr h hc 1
    have h0 : CMTF.iteration E o s = .ok (CMTF.orbit E o s 1) := h0
    rw [CMTF.iterate, h0, bind_ok, ih h1 h2]
    exact congrArg Except.ok (hshift j s).symm

theorem cmtf_shouldStop_total {o : CPOpts} {s : CMTFState} {R : ℕ} {ms qs : List ℕ} (h : s.Sized R ms qs) :
    ∃ b, CMTF.shouldStop o s = .ok b := by
  rw [CMTF.shouldStop, cmtf_sse_ok h, bind_ok]; exact ⟨_, rfl⟩

/-- The loggers of the configuration can measure every state with the right sizes. -/
def CMTF.Config.Measurable (c : CMTF.Config) (ms qs : List ℕ) : Prop :=
  ∀ p ∈ c.logs, ∀ s : CMTFState, s.Sized c.cp.opts.rank ms qs → ∃ v, p.2 s = .ok v

/-- A logger for the SSE can always measure. -/
theorem cmtf_measurable_sse {R : ℕ} {ms qs : List ℕ} (s : CMTFState) (h : s.Sized R ms qs) : ∃ v, CMTF.sse s = .ok v :=
  ⟨_, cmtf_sse_ok h⟩

/-- The fit that `cmtf_fit_unfold` describes, from its start `s0`. -/
theorem cmtf_completes {E : Ext} (hE : E.SVDOk) (hN : E.NNLSOk) {c : CMTF.Config}
    {nonNeg orth : Option (List Bool)} {X : NDArray ℝ} (hA : CP.Admissible c.cp.opts nonNeg orth X.shape)
    (hnn : ∀ l, nonNeg = some l → l = List.replicate X.shape.length false)
    {Ys : List (NDArray ℝ)} {modes : List Int} {ms qs : List ℕ}
    (hlog : c.Measurable ms qs) (hfreq : freqOption c.cp.freq ≠ 0) {arg : InitArg KruskalTensor} {t : KruskalTensor}
    {u : KruskalTensor} {s0 : CMTFState} (h0 : CMTF.Started c nonNeg orth X Ys modes ms qs t u s0)
    (hfit : ∀ (mi : Option Int) budget loggers file,
      CMTF.fit E c X Ys modes mi arg (CMTF.newObject nonNeg orth budget loggers file)
        = run (CMTF.method E c) ⟨s0, 0, mi.getD budget, loggers, file⟩)
    {budget : Int} {mi : Option Int} (hb : 0 < mi.getD budget) {loggers : List Logger} {file : Option H5File}
    (hS : Storing (CMTF.method E c) (CMTF.newObject nonNeg orth budget loggers file) []) :
    ∃ sk w', ∃ k : ℕ, CMTF.fit E c X Ys modes mi arg (CMTF.newObject nonNeg orth budget loggers file) = .ok () w' ∧
      (k : Int) ≤ mi.getD budget ∧ w'.it = k ∧ CMTF.iterate E c.cp.opts k s0 = .ok sk ∧
      CMTF.normalizeComponents sk = .ok w'.st ∧
      (∀ j < k, ∃ s, CMTF.iterate E c.cp.opts j s0 = .ok s ∧ CMTF.shouldStop c.cp.opts s = .ok false) ∧
      ((k : Int) < mi.getD budget → CMTF.shouldStop c.cp.opts sk = .ok true) ∧
      sk.Sized c.cp.opts.rank ms qs ∧ w'.st.Sized c.cp.opts.rank ms qs ∧ w'.st.cp.X = X ∧ w'.st.Ys = Ys ∧ w'.st.modes = modes ∧
      CMTF.sse w'.st = .ok (w'.st.trueLoss c.cp.opts.rank ms) ∧
      Storing (CMTF.method E c) w' (schedule (freqOption c.cp.freq) 0 k (fun j => (CMTF.orbit E c.cp.opts s0 j).cp.dec) ++
        finalCheckpoint (CMTF.method E c) 0 k (mi.getD budget).toNat (CMTF.orbit E c.cp.opts s0 k).cp.dec) := by
  have hcfg := h0.cfg hA hnn
  have hgood := cmtf_orbit_good hE hN hA.rank h0.sized hcfg
  set N := (mi.getD budget).toNat with hN'
  set ss := CMTF.orbit E c.cp.opts s0 with hss
  obtain ⟨k, hk1, hk2, hk3⟩ := exists_stop (P := fun j => CMTF.shouldStop c.cp.opts (ss j) = .ok true) N
  have hgo : ∀ j < k, CMTF.shouldStop c.cp.opts (ss j) = .ok false := by
    intro j hj
    obtain ⟨b, hb⟩ := cmtf_shouldStop_total (o := c.cp.opts) (hgood j).1
    cases b with
    | false => exact hb
    | true => exact absurd hb (hk2 j hj)
  have hT : Trajectory (CMTF.method E c) ss k :=
    { step := fun j _ => (hgood j).2.2.2.1
      go := hgo
      log := fun j _ p hp => hlog p hp _ (hgood (j + 1)).1
      store := fun _ _ => ⟨_, kruskal_storeIn_eq _⟩ }
  obtain ⟨s', e', hs', hX', hY', hm', -⟩ := cmtf_normalize_ok (hgood k).1 1e-15
  set w1 : World CMTFState := ⟨s0, 0, mi.getD budget, loggers, file⟩ with hw1
  have hmax : (w1.maxIts - w1.it).toNat = N := by simp [hw1, hN']
  obtain ⟨w', g1, g2, g3, g4, g5⟩ := C43_schedule (CMTF.method E c) hfreq (w := w1) (L := []) (ss := ss) (k := k)
    (s' := s') rfl hT (by rw [hmax]; exact hk1)
    (by rw [hmax]; exact hk3) e' (fun _ => by simpa [hw1] using hb) ⟨hS.path, hS.cks, hS.logs⟩ (by simp) (by simp)
  refine ⟨ss k, w', k, by rw [hfit]; exact g1, by omega, by rw [g3]; simp [hw1],
    cmtf_orbit_iterate hE hN hA.rank k h0.sized hcfg, by rw [g2]; exact e', fun j hj => ⟨_,
    cmtf_orbit_iterate hE hN hA.rank j h0.sized hcfg, hgo j hj⟩, fun h => hk3 (by omega), (hgood k).1, by rw [g2]; exact hs',
    by rw [g2, hX', (hgood k).2.2.1.X, h0.eqX], by rw [g2, hY', (hgood k).2.2.1.Ys, h0.eqYs],
    by rw [g2, hm', (hgood k).2.2.1.modes, h0.eqModes], by rw [g2]; exact cmtf_sse_ok hs', ?_⟩
  rw [hmax, List.nil_append] at g5
  exact g5

/-- **C83.** A fit of a new `CMTF_ALS` object with admissible options and without non-negativity constraints, whose
`init_components` gives a decomposition of the right sizes, completes: it performs `k` iterations from the start `s0` described by
`Started`, `k = max_its` or the state `sk` then meets the stopping criterion, `current_iteration` is `k`, the result is the
normalised `sk`, the checkpoints are those of the schedule (they are stored before the normalisation), and the SSE it reports is
the true coupled one. -/
theorem C83_fit_completes {E : Ext} (hE : E.SVDOk) (hN : E.NNLSOk) (hQ : E.QROk) {c : CMTF.Config}
    {nonNeg orth : Option (List Bool)} {X : NDArray ℝ} (hA : CP.Admissible c.cp.opts nonNeg orth X.shape)
    (hnn : ∀ l, nonNeg = some l → l = List.replicate X.shape.length false)
    {Ys : List (NDArray ℝ)} {modes : List Int} {ms qs : List ℕ} (hC : CMTF.Coupled X.shape Ys modes ms qs)
    (hlog : c.Measurable ms qs) (hfreq : freqOption c.cp.freq ≠ 0) {arg : InitArg KruskalTensor} {t : KruskalTensor}
    (hi : CP.StartsFrom E c.cp nonNeg orth arg X t) (ht : t.WF X.shape c.cp.opts.rank)
    {budget : Int} {mi : Option Int} (hb : 0 < mi.getD budget) {loggers : List Logger} {file : Option H5File}
    (hS : Storing (CMTF.method E c) (CMTF.newObject nonNeg orth budget loggers file) []) :
    ∃ u s0 sk w', ∃ k : ℕ, CMTF.Started c nonNeg orth X Ys modes ms qs t u s0 ∧
      CMTF.fit E c X Ys modes mi arg (CMTF.newObject nonNeg orth budget loggers file) = .ok () w' ∧
      (k : Int) ≤ mi.getD budget ∧ w'.it = k ∧ CMTF.iterate E c.cp.opts k s0 = .ok sk ∧
      CMTF.normalizeComponents sk = .ok w'.st ∧
      (∀ j < k, ∃ s, CMTF.iterate E c.cp.opts j s0 = .ok s ∧ CMTF.shouldStop c.cp.opts s = .ok false) ∧
      ((k : Int) < mi.getD budget → CMTF.shouldStop c.cp.opts sk = .ok true) ∧
      sk.Sized c.cp.opts.rank ms qs ∧ w'.st.Sized c.cp.opts.rank ms qs ∧ w'.st.cp.X = X ∧ w'.st.Ys = Ys ∧ w'.st.modes = modes ∧
      CMTF.sse w'.st = .ok (w'.st.trueLoss c.cp.opts.rank ms) ∧
      Storing (CMTF.method E c) w' (schedule (freqOption c.cp.freq) 0 k (fun j => (CMTF.orbit E c.cp.opts s0 j).cp.dec) ++
        finalCheckpoint (CMTF.method E c) 0 k (mi.getD budget).toNat (CMTF.orbit E c.cp.opts s0 k).cp.dec) := by
  obtain ⟨u, s0, h0, hfit⟩ := cmtf_fit_unfold hQ hA hC hi ht
  obtain ⟨sk, w', k, h⟩ := cmtf_completes hE hN hA hnn hlog hfreq h0 hfit hb hS
  exact ⟨u, s0, sk, w', k, h0, h⟩

/-- A `2 × 3` matrix to which a `2 × 4` matrix and a `3 × 2` matrix are coupled, the second with the mode given as `-1`; rank 2 and a
given start. The SSE is logged. -/
example {E : Ext} (hE : E.SVDOk) (hN : E.NNLSOk) (hQ : E.QROk) :
    ∃ w', CMTF.fit E ⟨⟨⟨2, 1e-8, 1e-8, none⟩, "precomputed", none, false, [], fun _ _ _ _ => 0, id, fun _ => none⟩,
        [("SSE".toList, CMTF.sse)], fun _ _ _ => 1, fun _ _ _ => 1⟩
      (full [2, 3] 1) [full [2, 4] 5, full [3, 2] 6] [0, -1] (some 10) (.tensor ⟨2, [full [2, 2] 1, full [3, 2] 1], full [2] 1⟩)
      (CMTF.newObject none none 1000 [{}] none) = .ok () w' ∧ w'.it ≤ 10 ∧ w'.st.Sized 2 [0, 1] [4, 2] := by
  have hA : CP.Admissible ⟨2, 1e-8, 1e-8, none⟩ none none (full [2, 3] (1 : ℝ)).shape := by
    refine ⟨by simp, by simp, by simp, by simp, by simp, by simp, by simp, by simp⟩
  have hC : CMTF.Coupled (full [2, 3] (1 : ℝ)).shape [full [2, 4] 5, full [3, 2] 6] [0, -1] [0, 1] [4, 2] := by
    refine ⟨.cons ⟨by decide, Or.inl rfl⟩ (.cons ⟨by decide, Or.inr rfl⟩ .nil), rfl, fun i hi => ?_⟩
    have : i < 2 := hi
    interval_cases i <;> rfl
  have ht : KruskalTensor.WF ⟨2, [full [2, 2] 1, full [3, 2] 1], full [2] 1⟩ (full [2, 3] (1 : ℝ)).shape 2 :=
    ⟨rfl, .cons rfl (.cons rfl .nil), rfl⟩
  obtain ⟨u, s0, sk, w', k, -, h2, h3, h4, -, -, -, -, -, h10, -⟩ := C83_fit_completes hE hN hQ
    (c := ⟨⟨⟨2, 1e-8, 1e-8, none⟩, "precomputed", none, false, [], fun _ _ _ _ => 0, id, fun _ => none⟩,
      [("SSE".toList, CMTF.sse)], fun _ _ _ => 1, fun _ _ _ => 1⟩) hA (by simp) hC
    (fun p hp s hs => by
      obtain rfl : p = ("SSE".toList, CMTF.sse) := by simpa using hp
      exact cmtf_measurable_sse s hs)
    (show freqOption none ≠ 0 by decide)
    (startsFrom_precomputed (by
      show "precomputed".toLower = _
      rw [String.toLower, ← String.toList_inj, String.toList_map]; decide) ht) ht (budget := 1000) (mi := some 10) (by decide)
    (loggers := [{}]) (file := none)
    ⟨fun h => absurd h (show ¬ (0 : Int) < -1 by decide), fun h => absurd h (show ¬ (0 : Int) < -1 by decide),
      fun h => absurd h (show ¬ (0 : Int) < -1 by decide)⟩
  exact ⟨w', h2, by rw [h4]; exact h3, h10⟩

end
end TK
