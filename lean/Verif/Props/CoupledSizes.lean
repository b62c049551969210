import Verif.Props.CMTFFitMore
import Verif.Props.CMTFFails
import Verif.Props.CMTFMoved
import Verif.Lemmas.Refine

/-!
# Coupled matrices of the wrong size (C123)

Source: cmtf.py:33-45 (the error), 155-187 (the updates), 291-303 (the right factors).

Nothing compares the number of rows of a coupled matrix with the size of its mode. A wrong number is noticed when the error is
computed (`Y - U Vᵀ` cannot be broadcast) or when the matrix is appended to the unfolded tensor. A matrix with one row that is not
the first one of its mode passes both.
-/

namespace TK
open NDArray Fit
open EStateM (Result)

noncomputable section

/-- Coupled matrices that may have the wrong number of rows: matrix `i` is coupled to mode `ms[i]` and has shape
`(ps[i], qs[i])`. -/
structure CMTF.Loose (shape : List ℕ) (Ys : List (NDArray ℝ)) (modes : List Int) (ms ps qs : List ℕ) : Prop where
  modes : List.Forall₂ (fun n m => IsMode n shape.length m) modes ms
  len : Ys.length = ms.length
  shapeY : ∀ i < ms.length, (Ys.getD i noArr).shape = [ps.getD i 0, qs.getD i 0]

/-- The first part of a fit of a new `CMTF_ALS` object, up to `init_components`. -/
theorem cmtf_fit_prepared {E : Ext} {c : CMTF.Config} {nonNeg orth : Option (List Bool)} {X : NDArray ℝ}
    (hA : CP.Admissible c.cp.opts nonNeg orth X.shape) {Ys : List (NDArray ℝ)} {modes : List Int} {ms ps qs : List ℕ}
    (hC : CMTF.Loose X.shape Ys modes ms ps qs) {arg : InitArg KruskalTensor} {t : KruskalTensor}
    (hi : CP.StartsFrom E c.cp nonNeg orth arg X t) :
    ∃ Vs, Vs.length = ms.length ∧ (∀ i < ms.length, Vs.getD i noArr
        = drawnV (if flagOf nonNeg (ms.getD i 0) then c.drawU i else c.drawN i) (qs.getD i 0) c.cp.opts.rank) ∧
      ∀ (mi : Option Int) budget loggers file,
      CMTF.fit E c X Ys modes mi arg (CMTF.newObject nonNeg orth budget loggers file)
        = (modifySt (CMTF.initRest E) >>= fun _ => run (CMTF.method E c))
          ⟨CMTF.prepared c nonNeg orth X Ys modes t Vs, 0, mi.getD budget, loggers, file⟩ := by
  obtain ⟨Vs, e1, hl, hV⟩ := initCoupledLoop_ok (c := c) (nonNeg := nonNeg) (Ys := Ys) (shape := X.shape)
    (n := fun j => ps.getD j 0) (q := fun j => qs.getD j 0) hA.nonNegLen (i := 0) hC.modes
    (by simpa using hC.len.ge) (fun j hj => by simpa using hC.shapeY j hj)
  simp only [Nat.zero_add] at hV
  refine ⟨Vs, hl, hV, fun mi budget loggers file => ?_⟩
  have hzoom : CMTF.zoom (CP.initComponents E c.cp arg)
      ⟨⟨{ CP.fresh nonNeg orth with X := X, XNorm := frobNorm X }, Ys, modes, CMTF.mapFrom 0 modes [], [], []⟩, 0, budget, loggers, file⟩
      = .ok () ⟨⟨{ CP.fresh nonNeg orth with X := X, XNorm := frobNorm X, dec := t }, Ys, modes, CMTF.mapFrom 0 modes [], [], []⟩,
        0, budget, loggers, file⟩ := by
    unfold CMTF.zoom
    have this' : CP.initComponents E c.cp arg ⟨{ CP.fresh nonNeg orth with X := X, XNorm := frobNorm X }, 0, budget, loggers, file⟩
      = .ok () ⟨{ CP.fresh nonNeg orth with X := X, XNorm := frobNorm X, dec := t }, 0, budget, loggers, file⟩ :=
      hi budget loggers file
    simp only [this']
  have hcoup : CMTF.initCoupled c
      ⟨{ CP.fresh nonNeg orth with X := X, XNorm := frobNorm X, dec := t }, Ys, modes, CMTF.mapFrom 0 modes [], [], []⟩
      = .ok (CMTF.prepared c nonNeg orth X Ys modes t Vs) := by
    rw [CMTF.initCoupled]
    show (CMTF.initCoupledLoop c nonNeg Ys 0 modes >>= _) = _
    rw [e1]; rfl
  have hcomp : CMTF.initComponents E c arg
      ⟨⟨{ CP.fresh nonNeg orth with X := X, XNorm := frobNorm X }, Ys, modes, CMTF.mapFrom 0 modes [], [], []⟩, 0, budget, loggers, file⟩
      = .ok () ⟨CMTF.prepared c nonNeg orth X Ys modes t Vs, 0, budget, loggers, file⟩ := by
    rw [CMTF.initComponents, bind_of_ok hzoom]
    exact modifySt_ok hcoup
  unfold CMTF.fit Fit.fit Fit.initFit
  simp only [bind_assoc]
  rw [bind_of_ok (modifySt_ok (w := CMTF.newObject nonNeg orth budget loggers file)
      (s := ⟨CP.fresh nonNeg orth, Ys, modes, CMTF.mapFrom 0 modes [], [], []⟩) rfl), bind_of_ok (modify_def _ _)]
  refine (bind_of_ok (x := modifySt (CMTF.setTarget X))
    (modifySt_ok (w := ⟨⟨CP.fresh nonNeg orth, Ys, modes, CMTF.mapFrom 0 modes [], [], []⟩, 0, budget, loggers, file⟩)
      (s := ⟨{ CP.fresh nonNeg orth with X := X, XNorm := frobNorm X }, Ys, modes, CMTF.mapFrom 0 modes [], [], []⟩) rfl)).trans ?_
  refine (bind_of_ok hcomp).trans ?_
  cases mi with
  | none =>
    rw [bind_of_ok (show setMaxIts none _ = .ok () _ from rfl)]
    rfl
  | some v =>
    rw [bind_of_ok (show setMaxIts (some v) _ = .ok () _ from rfl)]
    rfl

/-- The object when the first error is computed. -/
def CMTF.middle (c : CMTF.Config) (nonNeg orth : Option (List Bool)) (X : NDArray ℝ) (Ys : List (NDArray ℝ)) (modes : List Int)
    (u : KruskalTensor) (Vs : List (NDArray ℝ)) : CMTFState :=
  ⟨{ CP.fresh nonNeg orth with
    X := X
    XNorm := frobNorm X
    dec := u
    nonNeg := some (nonNeg.getD (List.replicate X.shape.length false))
    orth := some (orth.getD (List.replicate X.shape.length false))
    relChange := .pinf }, Ys, modes, CMTF.mapFrom 0 modes [], Vs, modes.map fun _ => full [c.cp.opts.rank] 1⟩

theorem cmtf_initRest_middle {E : Ext} (hQ : E.QROk) {c : CMTF.Config} {nonNeg orth : Option (List Bool)} {X : NDArray ℝ}
    (hA : CP.Admissible c.cp.opts nonNeg orth X.shape) {t : KruskalTensor} (ht : t.WF X.shape c.cp.opts.rank) :
    ∃ u v : KruskalTensor, u.WF X.shape c.cp.opts.rank ∧ ∀ (Ys : List (NDArray ℝ)) (modes : List Int) (Vs : List (NDArray ℝ)),
      CMTF.initRest E (CMTF.prepared c nonNeg orth X Ys modes t Vs) =
        (CMTF.sse (CMTF.middle c nonNeg orth X Ys modes u Vs)).map fun e =>
          { CMTF.middle c nonNeg orth X Ys modes u Vs with
            cp := { (CMTF.middle c nonNeg orth X Ys modes u Vs).cp with prevSSE := e, cache := none, dec := v } } := by
  have hlen : t.resetWeights.factorMatrices.length = X.shape.length := ht.factors.length_eq
  obtain ⟨fs', e, h1, h2⟩ := orthonormalise_init (E := E) hQ (orth := orth) (fs := t.resetWeights.factorMatrices) ht.factors
    (fun l hl => ⟨(hA.orthLen l hl).le, hA.orthRows l hl⟩)
  set u : KruskalTensor := { t.resetWeights with factorMatrices := fs' } with hu
  have hwf : u.WF X.shape c.cp.opts.rank := ⟨ht.rank, h1, ht.weights⟩
  obtain ⟨v, e2, -, -, -⟩ := normalizeComponents_ok hwf true 1e-15
  refine ⟨u, v, hwf, fun Ys modes Vs => ?_⟩
  rw [CMTF.initRest]
  simp only [CMTF.prepared, hlen]
  show (CP.orthonormalise E 0 (orth.getD (List.replicate X.shape.length false)) t.resetWeights.factorMatrices >>= _) = _
  rw [e, bind_ok]
  show (CMTF.sse (CMTF.middle c nonNeg orth X Ys modes u Vs) >>= _) = _
  cases CMTF.sse (CMTF.middle c nonNeg orth X Ys modes u Vs) with
  | error e => rfl
  | ok e =>
    rw [bind_ok]
    show (u.normalizeComponents true 1e-15 >>= _) = _
    rw [e2, bind_ok]
    rfl

/-- The error with other data for the coupled matrices. -/
theorem cmtf_sse_data {s : CMTFState} {R : ℕ} {ms qs : List ℕ} (h : s.Sized R ms qs) (Ys : List (NDArray ℝ)) :
    ∃ Zs, Zs.length = ms.length ∧ (∀ i < ms.length, (Zs.getD i noArr).shape = [s.cp.X.shape.getD (ms.getD i 0) 0, qs.getD i 0]) ∧
      CMTF.sse { s with Ys := Ys } = (CMTF.coupledLoop Ys Zs 0).map fun e => s.cp.trueSSE R + e := by
  obtain ⟨Zs, e1, e2, e3⟩ := reconstructed_ok h
  refine ⟨Zs, e2, fun i hi => by rw [e3 i hi]; rfl, ?_⟩
  rw [CMTF.sse]
  show (s.cp.dec.constructTensor >>= _) = _
  rw [constructTensor_eq h.cp.wf h.cp.order, bind_ok]
  obtain ⟨D, e, hD, hDg⟩ := zipB_sub_shape (A := s.cp.X)
    (B := ofFn s.cp.X.shape (cpEntry (fun r => s.cp.dec.weights.get [r]) s.cp.dec.factorMatrices R)) (· - ·) rfl
  show (zipB (· - ·) s.cp.X _ >>= _) = _
  rw [e, bind_ok, CMTF.coupledSSE]
  show ((CMTF.reconstructed s >>= _) >>= _) = _
  rw [e1, bind_ok]
  have : frobNorm D ^ 2 = s.cp.trueSSE R := by
    rw [frobNorm_sq, hD, CPState.trueSSE, sqErr]
    exact sumIdx_congr fun idx hidx => by rw [hDg idx hidx, get_ofFn hidx]
  rw [this]
  show (CMTF.coupledLoop Ys Zs 0 >>= _) = _
  cases CMTF.coupledLoop Ys Zs 0 <;> rfl

theorem bshape_rows {p n q : ℕ} (h : p ≠ n) (hp : p ≠ 1) (hn : n ≠ 1) : bshape [p, q] [n, q] = none := by
  simp [bshape, bshapeRev, bdim, h, hp, hn]

theorem coupledLoop_reject {ns ps qs : ℕ → ℕ} : ∀ {Ys Zs : List (NDArray ℝ)} {k : ℕ}, Ys.length = k → Zs.length = k →
    (∀ i < k, (Ys.getD i noArr).shape = [ps i, qs i] ∧ (Zs.getD i noArr).shape = [ns i, qs i]) →
    (∃ i < k, ps i ≠ ns i ∧ ps i ≠ 1 ∧ ns i ≠ 1) → ∀ e, CMTF.coupledLoop Ys Zs e = .error .valueError := by
  intro Ys
  induction Ys generalizing ns ps qs with
  | nil => intro Zs k h1 _ _ ⟨i, hi, _⟩ e; simp at h1; omega
  | cons Y Ys ih =>
    intro Zs k h1 h2 hs ⟨i, hi, a, b, c⟩ e
    obtain ⟨k, rfl⟩ : ∃ k', k = k' + 1 := ⟨Ys.length, by simpa using h1.symm⟩
    obtain ⟨Z, Zs, rfl⟩ := List.exists_cons_of_length_eq_add_one h2
    obtain ⟨s1, s2⟩ := hs 0 (by omega)
    simp only [List.getD_cons_zero] at s1 s2
    rw [CMTF.coupledLoop]
    match i, hi, a, b, c with
    | 0, _, a, b, c =>
      rw [zipB, s1, s2, bshape_rows a b c]; rfl
    | i + 1, hi, a, b, c =>
      have := ih (ns := fun i => ns (i + 1)) (ps := fun i => ps (i + 1)) (qs := fun i => qs (i + 1)) (by simpa using h1)
        (by simpa using h2) (fun j hj => by simpa using hs (j + 1) (by omega)) ⟨i, by omega, a, b, c⟩
      unfold zipB
      cases bshape Y.shape Z.shape with
      | none => rfl
      | some s => rw [bind_ok, this]

/-- Matrices of the right sizes. -/
theorem middle_sized {c : CMTF.Config} {nonNeg orth : Option (List Bool)} {X : NDArray ℝ}
    (hA : CP.Admissible c.cp.opts nonNeg orth X.shape) {Ys : List (NDArray ℝ)} {modes : List Int} {ms qs : List ℕ}
    (hC : CMTF.Coupled X.shape Ys modes ms qs) {u : KruskalTensor} (hu : u.WF X.shape c.cp.opts.rank) {Vs : List (NDArray ℝ)}
    (hl : Vs.length = ms.length) (hV : ∀ i < ms.length, Vs.getD i noArr
      = drawnV (if flagOf nonNeg (ms.getD i 0) then c.drawU i else c.drawN i) (qs.getD i 0) c.cp.opts.rank) :
    (CMTF.middle c nonNeg orth X Ys modes u Vs).Sized c.cp.opts.rank ms qs :=
  ⟨⟨hu, hA.order, hA.nonempty⟩, hC.modes, rfl, hC.len, hl, by simp [CMTF.middle, hC.modes.length_eq], hC.shapeY,
    fun i hi => by show (Vs.getD i noArr).shape = _; rw [hV i hi]; rfl⟩

/-- Any matrices of the right sizes. -/
theorem coupled_zeros {shape : List ℕ} {modes : List Int} {ms : List ℕ} (qs : List ℕ)
    (h : List.Forall₂ (fun n m => IsMode n shape.length m) modes ms) :
    CMTF.Coupled shape ((List.range ms.length).map fun i => full [shape.getD (ms.getD i 0) 0, qs.getD i 0] 0) modes ms qs :=
  ⟨h, by simp, fun i hi => by rw [getD_of_lt (by simpa using hi)]; simp [full]⟩

/-- **C123, the part that holds for all matrices.** A fit with a coupled matrix whose number of rows is not the size of its mode
raises `ValueError`, before the first iteration and with the checkpoint file as it was, unless one of the two numbers is 1. -/
theorem C123_rejected_partial {E : Ext} (hQ : E.QROk) {c : CMTF.Config} {nonNeg orth : Option (List Bool)} {X : NDArray ℝ}
    (hA : CP.Admissible c.cp.opts nonNeg orth X.shape) {Ys : List (NDArray ℝ)} {modes : List Int} {ms ps qs : List ℕ}
    (hC : CMTF.Loose X.shape Ys modes ms ps qs) {arg : InitArg KruskalTensor} {t : KruskalTensor}
    (hi : CP.StartsFrom E c.cp nonNeg orth arg X t) (ht : t.WF X.shape c.cp.opts.rank) {i : ℕ} (him : i < ms.length)
    (hp : ps.getD i 0 ≠ X.shape.getD (ms.getD i 0) 0) (hp1 : ps.getD i 0 ≠ 1) (hn1 : X.shape.getD (ms.getD i 0) 0 ≠ 1)
    (mi : Option Int) (budget : Int) (loggers : List Logger) (file : Option H5File) :
    ∃ w', CMTF.fit E c X Ys modes mi arg (CMTF.newObject nonNeg orth budget loggers file) = .error .valueError w' ∧
      w'.it = 0 ∧ w'.loggers = loggers ∧ w'.file = file := by
  obtain ⟨Vs, hl, hV, hfit⟩ := cmtf_fit_prepared hA hC hi
  obtain ⟨u, v, hu, hinit⟩ := cmtf_initRest_middle hQ hA ht
  have hS := middle_sized hA (coupled_zeros qs hC.modes) hu hl hV
  obtain ⟨Zs, z1, z2, z3⟩ := cmtf_sse_data hS Ys
  have herr := coupledLoop_reject (ns := fun i => X.shape.getD (ms.getD i 0) 0) (ps := fun i => ps.getD i 0)
    (qs := fun i => qs.getD i 0) hC.len z1 (fun j hj => ⟨hC.shapeY j hj, z2 j hj⟩) ⟨i, him, hp, hp1, hn1⟩ 0
  rw [herr] at z3
  have hsse : CMTF.sse (CMTF.middle c nonNeg orth X Ys modes u Vs) = .error .valueError := z3
  have he := hinit Ys modes Vs
  rw [hsse] at he
  refine ⟨⟨CMTF.prepared c nonNeg orth X Ys modes t Vs, 0, mi.getD budget, loggers, file⟩, ?_, rfl, rfl, rfl⟩
  rw [hfit]
  exact bind_of_error (modifySt_error he)

/-! ## The first matrix of a mode -/

theorem updateFactor_problem {E : Ext} {o : CPOpts} {s t : CMTFState} {m : ℕ} (e : CMTF.updateFactor E o m s = .ok t) :
    t.map = s.map ∧ t.cp.X = s.cp.X ∧ t.Ys = s.Ys := by
  unfold CMTF.updateFactor at e
  obtain ⟨_, -, e⟩ := bind_eq_ok.1 e
  obtain ⟨_, -, e⟩ := bind_eq_ok.1 e
  obtain ⟨_, -, e⟩ := bind_eq_ok.1 e
  obtain ⟨_, -, e⟩ := bind_eq_ok.1 e
  obtain ⟨_, -, e⟩ := bind_eq_ok.1 e
  obtain ⟨_, -, e⟩ := bind_eq_ok.1 e
  rw [pure_eq_ok] at e
  subst e
  exact ⟨rfl, rfl, rfl⟩


theorem first_lookup {modes : List Int} {i m : ℕ} (hf : FirstOf modes i) (hm : modes[i]? = some (m : Int)) :
    ∃ t, CMTF.lookup m (CMTF.mapFrom 0 modes []) = some (i :: t) := by
  have hD := mapOk modes
  cases hl : CMTF.lookup m (CMTF.mapFrom 0 modes []) with
  | none =>
    obtain ⟨l, hl'⟩ := hD.mem i hf.1 m hm
    exact absurd hl' (lookup_none hl l)
  | some l =>
    obtain ⟨k, t, rfl, h1, h2, -⟩ := hD.head (lookup_mem hl)
    rcases Nat.lt_trichotomy k i with h | rfl | h
    · exact absurd (h1.trans hm.symm) (hf.2 k h)
    · exact ⟨t, rfl⟩
    · exact absurd hm (h2 i h)

theorem hcat_rows {A B C : NDArray ℝ} {m n m' n' : ℕ} (hA : A.shape = [m, n]) (hB : B.shape = [m', n'])
    (h : hcat A B = .ok C) : m = m' := by
  by_contra hne
  simp [hcat, dims2_ok hA, dims2_ok hB, bind_ok, hne] at h

theorem alsRhs_rejects {s : CMTFState} {i m p q : ℕ} {t : List ℕ} {B : NDArray ℝ} (hl : CMTF.lookup m s.map = some (i :: t))
    (hi : i < s.Ys.length) (hY : (s.Ys.getD i noArr).shape = [p, q]) (hm : m < s.cp.X.shape.length)
    (hn0 : s.cp.X.shape.getD m 0 ≠ 0) (hp : p ≠ s.cp.X.shape.getD m 0) : CMTF.alsRhs m s ≠ .ok B := by
  intro e
  unfold CMTF.alsRhs at e
  rw [hl] at e
  obtain ⟨M, e1, e⟩ := bind_eq_ok.1 e
  obtain ⟨Ys, e2, e⟩ := bind_eq_ok.1 e
  obtain ⟨Y, e3, e⟩ := bind_eq_ok.1 e
  rw [unfold_eq _ (norm_nat hm) hn0] at e1
  rw [List.mapM_cons] at e2
  obtain ⟨Y', e4, e2⟩ := bind_eq_ok.1 e2
  obtain ⟨Ys', e5, e2⟩ := bind_eq_ok.1 e2
  rw [pure_eq_ok] at e2
  rw [pyGet_ok (norm_nat hi)] at e4
  subst e2
  rw [pyGet_zero_cons] at e3
  obtain rfl := Except.ok.inj e1
  obtain rfl := Except.ok.inj e4
  obtain rfl := Except.ok.inj e3
  rw [getD_of_lt hi] at hY
  exact hp (hcat_rows (shape_ofMat _ _ _) hY e).symm

theorem updateModes_rejects {E : Ext} {o : CPOpts} {i m p q : ℕ} {t : List ℕ} : ∀ (modes : List ℕ), m ∈ modes →
    ∀ {s s' : CMTFState}, CMTF.lookup m s.map = some (i :: t) → i < s.Ys.length → (s.Ys.getD i noArr).shape = [p, q] →
    m < s.cp.X.shape.length → s.cp.X.shape.getD m 0 ≠ 0 → p ≠ s.cp.X.shape.getD m 0 → CMTF.updateModes E o modes s ≠ .ok s' := by
  intro modes
  induction modes with
  | nil => intro h; simp at h
  | cons k modes ih =>
    intro hmem s s' h1 h2 h3 h4 h5 h6 e
    unfold CMTF.updateModes at ih e
    rw [List.foldlM_cons] at e
    obtain ⟨u, e1, e⟩ := bind_eq_ok.1 e
    obtain ⟨b, -, e1⟩ := bind_eq_ok.1 e1
    cases b with
    | true => simp at e1
    | false =>
      simp only [Bool.false_eq_true, if_false] at e1
      by_cases hk : m = k
      · subst hk
        unfold CMTF.updateFactor at e1
        obtain ⟨_, -, e1⟩ := bind_eq_ok.1 e1
        obtain ⟨B, e2, -⟩ := bind_eq_ok.1 e1
        exact alsRhs_rejects h1 h2 h3 h4 h5 h6 e2
      · obtain ⟨a1, a2, a3⟩ := updateFactor_problem e1
        exact ih ((List.mem_cons.1 hmem).resolve_left hk) (by rw [a1]; exact h1) (by rw [a3]; exact h2) (by rw [a3]; exact h3)
          (by rw [a2]; exact h4) (by rw [a2]; exact h5) (by rw [a2]; exact h6) e

theorem coupledLoop_ge : ∀ {Ys Zs : List (NDArray ℝ)} {e e' : ℝ}, CMTF.coupledLoop Ys Zs e = .ok e' → e ≤ e'
  | [], _, e, e', h => by rw [CMTF.coupledLoop] at h; exacts [(Except.ok.inj h).le, by simp]
  | _ :: _, [], e, e', h => by rw [CMTF.coupledLoop] at h; exacts [(Except.ok.inj h).le, by simp]
  | Y :: Ys, Z :: Zs, e, e', h => by
    rw [CMTF.coupledLoop] at h
    obtain ⟨D, -, h⟩ := bind_eq_ok.1 h
    have := coupledLoop_ge h
    have := sq_nonneg (frobNorm D)
    linarith

theorem cmtf_sse_nonneg {s : CMTFState} {e : ℝ} (h : CMTF.sse s = .ok e) : 0 ≤ e := by
  unfold CMTF.sse at h
  obtain ⟨Y, -, h⟩ := bind_eq_ok.1 h
  obtain ⟨D, -, h⟩ := bind_eq_ok.1 h
  obtain ⟨e', h1, h⟩ := bind_eq_ok.1 h
  rw [pure_eq_ok] at h
  unfold CMTF.coupledSSE at h1
  obtain ⟨Z, -, h1⟩ := bind_eq_ok.1 h1
  have := coupledLoop_ge h1
  have := sq_nonneg (frobNorm D)
  linarith

/-- Without a tolerance on the loss the stopping test does not hold at the start. -/
theorem cmtf_stop_start {o : CPOpts} {s : CMTFState} (hrel : s.cp.relChange = .pinf) (h : CMTF.shouldStop o s = .ok true) :
    0 < o.relLossTol := by
  by_contra htol
  rw [not_lt] at htol
  unfold CMTF.shouldStop at h
  obtain ⟨e, he, h⟩ := bind_eq_ok.1 h
  have h0 := cmtf_sse_nonneg he
  rw [pure_eq_ok, hrel] at h
  have : (FV.div e (s.cp.XNorm ^ 2)).lt o.relLossTol = false := by
    unfold FV.div
    split
    · simp only [FV.lt, decide_eq_false_iff_not, not_lt]
      exact htol.trans (div_nonneg h0 (sq_nonneg _))
    · split
      · rfl
      · split
        · rename_i h; exact absurd h (not_lt.2 h0)
        · rfl
  rw [this] at h
  cases h

/-- **C123, the first matrix of a mode.** A fit with a coupled matrix that has the wrong number of rows and is the first one of its
mode (given as a number that is not negative) performs no iteration: it can only return if the stopping test already holds at the
start, for which the tolerance on the loss must be positive. -/
theorem C123_first_partial {E : Ext} (hQ : E.QROk) {c : CMTF.Config} {nonNeg orth : Option (List Bool)} {X : NDArray ℝ}
    (hA : CP.Admissible c.cp.opts nonNeg orth X.shape) {Ys : List (NDArray ℝ)} {modes : List Int} {ms ps qs : List ℕ}
    (hC : CMTF.Loose X.shape Ys modes ms ps qs) {arg : InitArg KruskalTensor} {t : KruskalTensor}
    (hi : CP.StartsFrom E c.cp nonNeg orth arg X t) (ht : t.WF X.shape c.cp.opts.rank) {i m : ℕ} (hf : FirstOf modes i)
    (hm : modes[i]? = some (m : Int)) (hmd : m < X.shape.length) (hp : ps.getD i 0 ≠ X.shape.getD m 0)
    {mi : Option Int} {budget : Int} {loggers : List Logger} {file : Option H5File} {w' : World CMTFState}
    (h : CMTF.fit E c X Ys modes mi arg (CMTF.newObject nonNeg orth budget loggers file) = .ok () w') :
    w'.it = 0 ∧ (0 < mi.getD budget → 0 < c.cp.opts.relLossTol) := by
  obtain ⟨Vs, hl, hV, hfit⟩ := cmtf_fit_prepared hA hC hi
  obtain ⟨u, v, hu, hinit⟩ := cmtf_initRest_middle hQ hA ht
  rw [hfit] at h
  obtain ⟨_, w1, h1, h2⟩ := ok_of_bind h
  have hlen := hC.modes.length_eq
  have him : i < ms.length := by rw [← hlen]; exact hf.1
  cases hsse : CMTF.sse (CMTF.middle c nonNeg orth X Ys modes u Vs) with
  | error e =>
    have he := hinit Ys modes Vs
    rw [hsse] at he
    rw [modifySt_error he] at h1
    cases h1
  | ok e =>
    have he := hinit Ys modes Vs
    rw [hsse] at he
    rw [modifySt_ok he] at h1
    injection h1 with _ h1
    subst h1
    set s0 : CMTFState := { CMTF.middle c nonNeg orth X Ys modes u Vs with
      cp := { (CMTF.middle c nonNeg orth X Ys modes u Vs).cp with prevSSE := e, cache := none, dec := v } } with hs0
    obtain ⟨l, hlk⟩ := first_lookup hf hm
    have hstep : ∀ s', (CMTF.method E c).step s0 ≠ .ok s' := by
      intro s' es
      change CMTF.iteration E c.cp.opts s0 = .ok s' at es
      unfold CMTF.iteration at es
      obtain ⟨s1, es, -⟩ := bind_eq_ok.1 es
      unfold CMTF.updateFactors at es
      obtain ⟨s2, es, -⟩ := bind_eq_ok.1 es
      exact updateModes_rejects (p := ps.getD i 0) (q := qs.getD i 0) _ (List.mem_range.2 hmd) hlk
        (by show i < Ys.length; rw [hC.len]; exact him) (hC.shapeY i him) hmd
        (by show X.shape.getD m 0 ≠ 0; rw [getD_of_lt hmd]; exact hA.nonempty _ (List.getElem_mem hmd)) hp es
    unfold run at h2
    obtain ⟨_, w2, h3, h2⟩ := ok_of_bind h2
    rw [modifySt_ok (s := s0) rfl] at h3
    injection h3 with _ h3
    subst h3
    obtain ⟨w3, w4, h3, h2⟩ := ok_of_bind h2
    rw [get_def] at h3
    injection h3 with h3 h4
    subst h3 h4
    obtain ⟨last, w5, h3, h2⟩ := ok_of_bind h2
    obtain ⟨_, w6, h4, h2⟩ := ok_of_bind h2
    have hpost : w'.it = w6.it := by
      cases hpo : (CMTF.method E c).post w6.st with
      | error e => rw [modifySt_error hpo] at h2; cases h2
      | ok s6 => rw [modifySt_ok hpo] at h2; injection h2 with _ h2; subst h2; rfl
    have hfin := (final_same (CMTF.method E c) last w5).2.1
    rw [h4] at hfin
    have hfin' : w6.it = w5.it := hfin
    have hloop : w5.it = 0 ∧ (0 < mi.getD budget → 0 < c.cp.opts.relLossTol) := by
      change loop (CMTF.method E c) (mi.getD budget - 0).toNat 0 none ⟨s0, 0, mi.getD budget, loggers, file⟩ = _ at h3
      rw [Int.sub_zero] at h3
      cases hN : (mi.getD budget).toNat with
      | zero =>
        rw [hN, loop] at h3
        rw [pure_def] at h3
        injection h3 with _ h3
        subst h3
        exact ⟨rfl, fun h => by omega⟩
      | succ n =>
        rw [hN, loop] at h3
        obtain ⟨w7, w8, h5, h3⟩ := ok_of_bind h3
        rw [get_def] at h5
        injection h5 with h5 h6
        subst h5 h6
        cases hst : (CMTF.method E c).stop s0 with
        | error e => rw [bind_of_error (lift_error hst _)] at h3; cases h3
        | ok b =>
          rw [bind_of_ok (lift_ok hst _)] at h3
          cases b with
          | true =>
            rw [if_pos rfl, pure_def] at h3
            injection h3 with _ h3
            subst h3
            exact ⟨rfl, fun _ => cmtf_stop_start (s := s0) rfl hst⟩
          | false =>
            rw [if_neg (by simp)] at h3
            obtain ⟨_, w9, h5, -⟩ := ok_of_bind h3
            cases hs : (CMTF.method E c).step s0 with
            | ok s' => exact absurd hs (hstep s')
            | error e => rw [modifySt_error hs] at h5; cases h5
    exact ⟨by rw [hpost, hfin', hloop.1], hloop.2⟩

/-! ## The other matrices of a mode -/

theorem coupledLoop_set {y : NDArray ℝ} : ∀ {Ys Zs : List (NDArray ℝ)} {i : ℕ} {e : ℝ},
    (∀ Z, Zs[i]? = some Z → zipB (· - ·) y Z = zipB (· - ·) (Ys.getD i noArr) Z) →
    CMTF.coupledLoop (Ys.set i y) Zs e = CMTF.coupledLoop Ys Zs e
  | [], _, _, _, _ => rfl
  | Y :: Ys, [], i, e, _ => by cases i <;> simp [CMTF.coupledLoop]
  | Y :: Ys, Z :: Zs, 0, e, h => by
    rw [List.set_cons_zero, CMTF.coupledLoop, CMTF.coupledLoop, h Z rfl]
    rfl
  | Y :: Ys, Z :: Zs, i + 1, e, h => by
    rw [List.set_cons_succ, CMTF.coupledLoop, CMTF.coupledLoop]
    cases hz : zipB (· - ·) Y Z with
    | error e => rfl
    | ok D =>
      rw [bind_ok, bind_ok]
      exact coupledLoop_set fun W hW => h W hW

/-- Spec: the matrix with `n` copies of a row. -/
def tiled (n q : ℕ) (y : NDArray ℝ) : NDArray ℝ := ofMat n q fun _ j => y.get [0, j]

theorem zipB_tiled {y Z : NDArray ℝ} {n q : ℕ} (hy : y.shape = [1, q]) (hZ : Z.shape = [n, q]) :
    zipB (· - ·) y Z = zipB (· - ·) (tiled n q y) Z := by
  rw [zipB_row_mat _ hy hZ, zipB_mat_mat _ (A := tiled n q y) (shape_ofMat _ _ _) hZ]
  refine congrArg Except.ok (ofMat_congr fun a ha j hj => ?_)
  rw [tiled, get_ofMat ha hj]

/-- The error with a row in the place of a matrix. -/
theorem cmtf_sse_row {s : CMTFState} {R : ℕ} {ms qs : List ℕ} (h : s.Sized R ms qs) {i : ℕ} (hi : i < ms.length) {y : NDArray ℝ}
    (hy : y.shape = [1, qs.getD i 0])
    (hY : s.Ys.getD i noArr = tiled (s.cp.X.shape.getD (ms.getD i 0) 0) (qs.getD i 0) y) :
    CMTF.sse (s.withData i y) = CMTF.sse s := by
  obtain ⟨Zs, z1, z2, z3⟩ := reconstructed_ok h
  have hc : CMTF.coupledSSE (s.withData i y) = CMTF.coupledSSE s := by
    unfold CMTF.coupledSSE
    show (CMTF.reconstructed s >>= _) = _
    rw [z1, bind_ok, bind_ok]
    refine coupledLoop_set fun Z hZ => ?_
    rw [hY]
    obtain ⟨hl, rfl⟩ := List.getElem?_eq_some_iff.1 hZ
    have := z3 i hi
    rw [getD_of_lt hl] at this
    exact zipB_tiled hy (by rw [this]; rfl)
  unfold CMTF.sse
  rw [hc]
  rfl

/-- `_fit` without `_init_fit`. -/
def Method.started {σ τ : Type} (m : Method σ τ) : Method σ τ := { m with initRest := fun _ => .error .valueError }

theorem loop_started {σ τ : Type} (m : Method σ τ) : ∀ (n i : ℕ) (last : Option ℕ), loop m.started n i last = loop m n i last
  | 0, _, _ => rfl
  | n + 1, i, last => by
    rw [loop, loop]
    simp only [loop_started m n]
    rfl

theorem run_started {σ τ : Type} (m : Method σ τ) : run m.started = run m := by
  unfold run
  simp only [loop_started]
  rfl

/-- The objects of the two fits: `p` has the row where `s` has the matrix of copies. -/
structure CMTF.RowFor (o : CPOpts) (ms qs : List ℕ) (i : ℕ) (y : NDArray ℝ) (p s : CMTFState) : Prop where
  eq : p = s.withData i y
  sized : s.Sized o.rank ms qs
  cfg : s.Cfg o
  other : ¬ FirstOf s.modes i
  data : s.Ys.getD i noArr = tiled (s.cp.X.shape.getD (ms.getD i 0) 0) (qs.getD i 0) y

theorem rowFor_refines {E : Ext} (hE : E.SVDOk) (hN : E.NNLSOk) {c : CMTF.Config} (hr : 0 < c.cp.opts.rank) {ms qs : List ℕ} {i : ℕ}
    (hi : i < ms.length) {y : NDArray ℝ} (hy : y.shape = [1, qs.getD i 0])
    (hlog : ∀ l ∈ c.logs, ∀ s v, l.2 s = .ok v → CMTF.sse (s.withData i y) = CMTF.sse s → l.2 (s.withData i y) = .ok v) :
    Refines (CMTF.RowFor c.cp.opts ms qs i y) (CMTF.method E c).started (CMTF.method E c).started where
  dec := fun {p s} h => by rw [h.eq]; rfl
  stop := fun {p s b} h e => by
    rw [h.eq]
    show CMTF.shouldStop c.cp.opts (s.withData i y) = .ok b
    change CMTF.shouldStop c.cp.opts s = .ok b at e
    unfold CMTF.shouldStop at e ⊢
    rw [cmtf_sse_row h.sized hi hy h.data]
    exact e
  prepare := fun {p s s1} h e => by
    obtain rfl : s = s1 := Except.ok.inj e
    exact ⟨p, rfl, h⟩
  step := fun {p s s1} h e => by
    change CMTF.iteration E c.cp.opts s = .ok s1 at e
    obtain ⟨s', e', h1, h2, h3, -⟩ := cmtf_iteration_ok hE hN hr h.sized h.cfg
    rw [e] at e'
    obtain rfl := Except.ok.inj e'
    have hdata : s1.Ys.getD i noArr = tiled (s1.cp.X.shape.getD (ms.getD i 0) 0) (qs.getD i 0) y := by
      rw [h2.Ys, h2.X]; exact h.data
    refine ⟨s1.withData i y, ?_, rfl, h1, h3, by rw [h2.modes]; exact h.other, hdata⟩
    rw [h.eq]
    show CMTF.iteration E c.cp.opts (s.withData i y) = _
    unfold CMTF.iteration at e ⊢
    rw [C58_data_ignored h.sized.map h.other]
    obtain ⟨s2, e1, e2⟩ := bind_eq_ok.1 e
    rw [e1]
    show CMTF.updateConvergence (s2.withData i y) = _
    unfold CMTF.updateConvergence at e2 ⊢
    obtain ⟨v, e3, e4⟩ := bind_eq_ok.1 e2
    rw [pure_eq_ok] at e4
    have hS2 : s2.Sized c.cp.opts.rank ms qs := by
      subst e4
      exact ⟨⟨h1.cp.wf, h1.cp.order, h1.cp.nonempty⟩, h1.modes, h1.map, h1.lenY, h1.lenV, h1.lenW, h1.shapeY, h1.shapeV⟩
    rw [cmtf_sse_row hS2 hi hy (by subst e4; exact hdata), e3, bind_ok]
    subst e4
    rfl
  post := fun {p s s1} h e => by
    change CMTF.normalizeComponents s = .ok s1 at e
    obtain ⟨s', e', h1, h2, h3, h4, -⟩ := cmtf_normalize_ok h.sized 1e-15
    rw [e] at e'
    obtain rfl := Except.ok.inj e'
    have hk : s1.cp.nonNeg = s.cp.nonNeg ∧ s1.cp.orth = s.cp.orth := by
      unfold CMTF.normalizeComponents at e
      obtain ⟨Vs, -, e⟩ := bind_eq_ok.1 e
      obtain ⟨d, -, e⟩ := bind_eq_ok.1 e
      rw [pure_eq_ok] at e
      subst e
      exact ⟨rfl, rfl⟩
    refine ⟨s1.withData i y, ?_, rfl, h1, ⟨by rw [hk.1, h2]; exact h.cfg.nonNeg, fun m hm => ?_⟩, by rw [h4]; exact h.other,
      by rw [h3, h2]; exact h.data⟩
    · rw [h.eq]
      show CMTF.normalizeComponents (s.withData i y) = _
      unfold CMTF.normalizeComponents at e ⊢
      obtain ⟨Vs, e1, e⟩ := bind_eq_ok.1 e
      obtain ⟨d, e2, e⟩ := bind_eq_ok.1 e
      rw [pure_eq_ok] at e
      show (CMTF.scaleLoop s.cp.dec.factorMatrices s.V s.modes >>= _) = _
      rw [e1, bind_ok]
      show (s.cp.dec.normalizeComponents true 1e-15 >>= _) = _
      rw [e2, bind_ok]
      subst e
      rfl
    · rw [h2] at hm
      obtain ⟨on, ridge, hc⟩ := h.cfg.conf m hm
      exact ⟨on, ridge, by rw [hk.1]; exact hc.nonNeg, by rw [hk.2]; exact hc.orth, hc.ridge⟩
  initRest := fun {p s s1} h e => by cases e
  logs := by
    show List.Forall₂ _ c.logs c.logs
    refine List.forall₂_same.2 fun l hl => ⟨rfl, fun p s v h e => ?_⟩
    rw [h.eq]
    exact hlog l hl s v e (cmtf_sse_row h.sized hi hy h.data)
  storeDec := rfl
  freq := rfl
  hasPath := rfl
  typeName := rfl
  usesLoopVar := rfl
  writesIts := rfl

/-- **C123, refuted** for a matrix that is not the first one of its mode: a matrix with a single row is accepted whatever the size
`n` of the mode is, and the fit is the one with `n` copies of the row: same decomposition, right factors, iterations, loggers and
checkpoint file. -/
theorem C123_fails {E : Ext} (hE : E.SVDOk) (hN : E.NNLSOk) (hQ : E.QROk) {c : CMTF.Config}
    {nonNeg orth : Option (List Bool)} {X : NDArray ℝ} (hA : CP.Admissible c.cp.opts nonNeg orth X.shape)
    (hnn : ∀ l, nonNeg = some l → l = List.replicate X.shape.length false)
    {Ys : List (NDArray ℝ)} {modes : List Int} {ms qs : List ℕ} (hC : CMTF.Coupled X.shape Ys modes ms qs)
    (hlog : c.Measurable ms qs) (hfreq : freqOption c.cp.freq ≠ 0) {arg : InitArg KruskalTensor} {t : KruskalTensor}
    (hi : CP.StartsFrom E c.cp nonNeg orth arg X t) (ht : t.WF X.shape c.cp.opts.rank)
    {budget : Int} {mi : Option Int} (hb : 0 < mi.getD budget) {loggers : List Logger} {file : Option H5File}
    (hS : Storing (CMTF.method E c) (CMTF.newObject nonNeg orth budget loggers file) [])
    {i : ℕ} (him : i < ms.length) (hf : ¬ FirstOf modes i) {y : NDArray ℝ} (hy : y.shape = [1, qs.getD i 0])
    (hY : Ys.getD i noArr = tiled (X.shape.getD (ms.getD i 0) 0) (qs.getD i 0) y)
    (hlog2 : ∀ l ∈ c.logs, ∀ s v, l.2 s = .ok v → CMTF.sse (s.withData i y) = CMTF.sse s → l.2 (s.withData i y) = .ok v) :
    ∃ w w', CMTF.fit E c X Ys modes mi arg (CMTF.newObject nonNeg orth budget loggers file) = .ok () w ∧
      CMTF.fit E c X (Ys.set i y) modes mi arg (CMTF.newObject nonNeg orth budget loggers file) = .ok () w' ∧
      w'.st.cp = w.st.cp ∧ w'.st.V = w.st.V ∧ w'.it = w.it ∧ w'.loggers = w.loggers ∧ w'.file = w.file := by
  obtain ⟨u0, s0, -, w, k, hst, h1, -⟩ := C83_fit_completes hE hN hQ hA hnn hC hlog hfreq hi ht hb hS
  have hL : CMTF.Loose X.shape Ys modes ms (ms.map fun m => X.shape.getD m 0) qs := ⟨hC.modes, hC.len, fun j hj => by
    rw [hC.shapeY j hj, List.getD_eq_getElem?_getD (l := ms.map _), List.getElem?_map, List.getElem?_eq_getElem hj, getD_of_lt hj]
    rfl⟩
  have hL' : CMTF.Loose X.shape (Ys.set i y) modes ms ((ms.map fun m => X.shape.getD m 0).set i 1) qs :=
    ⟨hC.modes, by rw [List.length_set, hC.len], fun j hj => by
      by_cases hij : i = j
      · subst hij
        rw [getD_of_lt (by rw [List.length_set, hC.len]; exact hj), List.getElem_set_self, hy]
        simp [hj]
      · have := hL.shapeY j hj
        rw [List.getD_eq_getElem?_getD] at this ⊢
        rw [List.getElem?_set_ne hij, this]
        simp [List.getElem?_set_ne hij]⟩
  obtain ⟨Vs, hl, hV, hfit⟩ := cmtf_fit_prepared hA hL hi
  obtain ⟨Vs', hl', hV', hfit'⟩ := cmtf_fit_prepared hA hL' hi
  obtain rfl : Vs' = Vs := List.ext_getElem (hl'.trans hl.symm) fun j hj hj2 => by
    have a := hV j (by omega)
    have b := hV' j (by omega)
    rw [getD_of_lt hj2] at a
    rw [getD_of_lt hj] at b
    rw [a, b]
  obtain ⟨u, v, hu, hinit⟩ := cmtf_initRest_middle hQ hA ht
  have hM := middle_sized hA hC hu hl hV
  have e1 := hinit Ys modes Vs'
  have e2 := hinit (Ys.set i y) modes Vs'
  have hrow : CMTF.sse (CMTF.middle c nonNeg orth X (Ys.set i y) modes u Vs') = CMTF.sse (CMTF.middle c nonNeg orth X Ys modes u Vs') :=
    cmtf_sse_row hM him hy hY
  rw [hrow, cmtf_sse_ok hM] at e2
  rw [cmtf_sse_ok hM] at e1
  have h1' := h1
  rw [hfit, bind_of_ok (modifySt_ok e1), ← run_started] at h1'
  obtain ⟨u', s1, e3, hs1⟩ := cmtf_initRest_ok (E := E) hQ hA hC ht hl hV
  rw [e1] at e3
  obtain rfl := Except.ok.inj e3
  obtain ⟨a', w', r1, r2, -⟩ := run_sim (rowFor_refines (E := E) hE hN hA.rank him hy hlog2)
    ⟨_, 0, mi.getD budget, loggers, file⟩ _ ⟨⟨rfl, hs1.sized, hs1.cfg hA hnn, hf, hY⟩, rfl, rfl, rfl, rfl⟩ () w h1'
  refine ⟨w, w', h1, ?_, by rw [r2.st.eq]; rfl, by rw [r2.st.eq]; rfl, r2.it, r2.loggers, r2.file⟩
  rw [hfit', bind_of_ok (modifySt_ok e2), ← run_started]
  exact r1

/-! ## Examples -/

/-- A `2 × 2` tensor with a `3 × 2` matrix coupled to its first mode is rejected. -/
example {E : Ext} (hQ : E.QROk) (x y f g : ℕ → ℕ → ℝ) (d : ℕ → ℕ → ℕ → ℝ) (budget : Int) :
    ∃ w', CMTF.fit E (coupledConfig d) (ofMat 2 2 x) [ofMat 3 2 y] [0] (some budget)
        (.tensor ⟨2, [ofMat 2 2 f, ofMat 2 2 g], full [2] 1⟩) (CMTF.newObject none none budget [] none) = .error .valueError w' := by
  have ht : KruskalTensor.WF ⟨2, [ofMat 2 2 f, ofMat 2 2 g], full [2] 1⟩ (ofMat 2 2 x).shape 2 :=
    ⟨rfl, .cons rfl (.cons rfl .nil), rfl⟩
  have hC : CMTF.Loose (ofMat 2 2 x).shape [ofMat 3 2 y] [0] [0] [3] [2] :=
    ⟨.cons ⟨show 0 < 2 by decide, Or.inl rfl⟩ .nil, rfl, fun i hi => by
      obtain rfl : i = 0 := by have : i < 1 := hi; omega
      rfl⟩
  obtain ⟨w', h, -⟩ := C123_rejected_partial hQ (c := coupledConfig d) (pair_admissible rfl) hC
    (startsFrom_precomputed pair_init ht) ht (i := 0) (by decide) (show 3 ≠ 2 by decide) (show 3 ≠ 1 by decide)
    (show 2 ≠ 1 by decide) (some budget) budget [] none
  exact ⟨w', h⟩

/-- A `2 × 2` tensor with a `1 × 2` matrix coupled to its first mode: no iteration is performed. -/
example {E : Ext} (hQ : E.QROk) (x y f g : ℕ → ℕ → ℝ) (d : ℕ → ℕ → ℕ → ℝ) (budget : Int) (w' : World CMTFState)
    (h : CMTF.fit E (coupledConfig d) (ofMat 2 2 x) [ofMat 1 2 y] [0] (some budget)
        (.tensor ⟨2, [ofMat 2 2 f, ofMat 2 2 g], full [2] 1⟩) (CMTF.newObject none none budget [] none) = .ok () w') :
    w'.it = 0 := by
  have ht : KruskalTensor.WF ⟨2, [ofMat 2 2 f, ofMat 2 2 g], full [2] 1⟩ (ofMat 2 2 x).shape 2 :=
    ⟨rfl, .cons rfl (.cons rfl .nil), rfl⟩
  have hC : CMTF.Loose (ofMat 2 2 x).shape [ofMat 1 2 y] [0] [0] [1] [2] :=
    ⟨.cons ⟨show 0 < 2 by decide, Or.inl rfl⟩ .nil, rfl, fun i hi => by
      obtain rfl : i = 0 := by have : i < 1 := hi; omega
      rfl⟩
  exact (C123_first_partial hQ (c := coupledConfig d) (pair_admissible rfl) hC
    (startsFrom_precomputed pair_init ht) ht (i := 0) (m := 0) ⟨by decide, fun j hj => by omega⟩ rfl (show 0 < 2 by decide)
    (show 1 ≠ 2 by decide) h).1

/-- A `2 × 2` tensor with two matrices coupled to its first mode, the second of them with one row: the fit is performed. -/
example {E : Ext} (hE : E.SVDOk) (hN : E.NNLSOk) (hQ : E.QROk) (x y z f g : ℕ → ℕ → ℝ) (d : ℕ → ℕ → ℕ → ℝ) (budget : Int)
    (hb : 0 < budget) :
    ∃ w', CMTF.fit E (coupledConfig d) (ofMat 2 2 x) [ofMat 2 3 y, ofMat 1 2 z] [0, 0] (some budget)
        (.tensor ⟨2, [ofMat 2 2 f, ofMat 2 2 g], full [2] 1⟩) (CMTF.newObject none none budget [] none) = .ok () w' := by
  have ht : KruskalTensor.WF ⟨2, [ofMat 2 2 f, ofMat 2 2 g], full [2] 1⟩ (ofMat 2 2 x).shape 2 :=
    ⟨rfl, .cons rfl (.cons rfl .nil), rfl⟩
  have hC : CMTF.Coupled (ofMat 2 2 x).shape [ofMat 2 3 y, tiled 2 2 (ofMat 1 2 z)] [0, 0] [0, 0] [3, 2] :=
    ⟨.cons ⟨show 0 < 2 by decide, Or.inl rfl⟩ (.cons ⟨show 0 < 2 by decide, Or.inl rfl⟩ .nil), rfl, fun i hi => by
      have : i < 2 := hi
      interval_cases i <;> rfl⟩
  obtain ⟨-, w', -, h, -⟩ := C123_fails hE hN hQ (c := coupledConfig d) (X := ofMat 2 2 x) (nonNeg := none) (orth := none)
    (pair_admissible rfl) (by simp) hC (coupled_measurable _ _ _) (show freqOption none ≠ 0 by decide)
    (startsFrom_precomputed pair_init ht) ht (mi := some budget) (budget := budget) (loggers := []) (file := none) hb
    (coupled_storing _ _ _) (i := 1) (by decide) (fun h => h.2 0 (by decide) rfl) (y := ofMat 1 2 z) rfl rfl
    (by intro l hl; simp [coupledConfig] at hl)
  exact ⟨w', h⟩

end
end TK
