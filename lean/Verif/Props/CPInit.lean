import Verif.Model.CPFit
import Verif.Lemmas.Decomposer
import Verif.Props.CP
import Verif.Props.Kruskal
import Verif.LinAlg.KyFan
import Verif.LinAlg.Exists

/-!
# Initialisation of `CP_ALS`: C61, C62, the CP part of C68, and C73
-/

namespace TK
open NDArray
open EStateM (Result)
open Fit

noncomputable section

/-! ## C61 -/

/-- The names of the initialisation schemes. -/
def knownInits : List String := ["random", "svd", "from_checkpoint", "precomputed"]

/-- C61. Only the lower-case form of a known `init` matters. -/
theorem C61_case_insensitive (E : Ext) (c : CP.Config) (i : String) (hi : i.toLower = c.init.toLower)
    (hk : i.toLower ∈ knownInits) (arg : InitArg KruskalTensor) :
    CP.initComponents E { c with init := i } arg = CP.initComponents E c arg := by
  have hk' : c.init.toLower ∈ knownInits := hi ▸ hk
  simp only [knownInits, List.mem_cons, List.not_mem_nil, or_false] at hk'
  unfold CP.initComponents
  simp only [hi]
  rcases hk' with h | h | h | h <;> simp only [h] <;> rfl

example : ("RANDOM".toLower ∈ knownInits ∧ "Random".toLower = "RANDOM".toLower) ∧
    ("PreComputed".toLower ∈ knownInits ∧ "SVD".toLower ∈ knownInits) := by
  have h1 : "RANDOM".toLower = "random" := by rw [String.toLower, ← String.toList_inj, String.toList_map]; decide
  have h2 : "Random".toLower = "random" := by rw [String.toLower, ← String.toList_inj, String.toList_map]; decide
  have h3 : "PreComputed".toLower = "precomputed" := by
    rw [String.toLower, ← String.toList_inj, String.toList_map]; decide
  have h4 : "SVD".toLower = "svd" := by rw [String.toLower, ← String.toList_inj, String.toList_map]; decide
  rw [h1, h2, h3, h4]
  simp [knownInits]

/-- C61. `precomputed` uses exactly the decomposition supplied, after checking it. -/
theorem C61_precomputed (E : Ext) (c : CP.Config) (hi : c.init.toLower = "precomputed") (t : KruskalTensor)
    (w : World CPState) :
    CP.initComponents E c (.tensor t) w =
      match CP.checkValid c.opts.rank w.st.X.shape t with
      | .ok _ => .ok () { w with st := { w.st with dec := t } }
      | .error e => .error e w := by
  unfold CP.initComponents
  simp only [hi]
  cases h : CP.checkValid c.opts.rank w.st.X.shape t with
  | ok u =>
    refine modifySt_ok (f := fun s => do CP.checkValid c.opts.rank s.X.shape t; pure { s with dec := t }) (w := w) ?_
    simp only [h]; rfl
  | error e =>
    refine modifySt_error (f := fun s => do CP.checkValid c.opts.rank s.X.shape t; pure { s with dec := t })
      (w := w) ?_
    simp only [h]; rfl

/-- C61. Without a decomposition `precomputed` raises `AttributeError` (there is no separate check). -/
theorem C61_precomputed_missing (E : Ext) (c : CP.Config) (hi : c.init.toLower = "precomputed")
    (w : World CPState) : CP.initComponents E c .none w = .error .attributeError w := by
  unfold CP.initComponents
  simp only [hi]
  rfl

/-- C61. A decomposition or path that is passed along with another initialisation raises `Warning`, and nothing
has been changed. -/
theorem C61_warning (E : Ext) (c : CP.Config) (h1 : c.init.toLower ≠ "precomputed")
    (h2 : c.init.toLower ≠ "from_checkpoint") {arg : InitArg KruskalTensor} (ha : arg.given = true)
    (w : World CPState) : CP.initComponents E c arg w = .error .warning w := by
  unfold CP.initComponents
  have : (["precomputed", "from_checkpoint"].contains c.init.toLower) = false := by
    simp [List.contains_cons, h1, h2]
  simp only [ha, this, Bool.not_false, Bool.and_self, if_true]
  rfl

/-- C61. An `init` that is neither a scheme nor the path of a file raises `ValueError`. -/
theorem C61_unknown (E : Ext) (c : CP.Config) (hk : c.init.toLower ∉ knownInits) (hf : c.isFile c.init = none)
    (w : World CPState) : CP.initComponents E c .none w = .error .valueError w := by
  simp only [knownInits, List.mem_cons, List.not_mem_nil, or_false, not_or] at hk
  unfold CP.initComponents
  simp only [InitArg.given, Bool.false_and, Bool.false_eq_true, if_false, hk.1, hk.2.1, hk.2.2.1, hk.2.2.2, hf]
  rfl

/-- C61. An `init` that is the path of a checkpoint file behaves like `from_checkpoint` with that path. -/
theorem C61_path (E : Ext) (c : CP.Config) (hk : c.init.toLower ∉ knownInits) {p : CkPath}
    (hf : c.isFile c.init = some p) (i : String) (hi : i.toLower = "from_checkpoint") (w : World CPState) :
    CP.initComponents E c .none w = CP.initComponents E { c with init := i } (.path p) w := by
  simp only [knownInits, List.mem_cons, List.not_mem_nil, or_false, not_or] at hk
  unfold CP.initComponents
  simp only [InitArg.given, Bool.false_and, Bool.false_eq_true, if_false, hk.1, hk.2.1, hk.2.2.1, hk.2.2.2, hf, hi]
  rfl

/-- C61. `from_checkpoint` needs a path: without one it raises `TypeError`, and if there is no file at the decomposer's own path,
`FileNotFoundError`. Nothing has been changed. -/
theorem C61_no_checkpoint_file (E : Ext) (c : CP.Config) (hi : c.init.toLower = "from_checkpoint") (w : World CPState) :
    CP.initComponents E c .none w = .error .typeError w ∧
      (w.file = none → CP.initComponents E c (.path .own) w = .error .fileNotFound w) := by
  unfold CP.initComponents
  refine ⟨by simp only [hi]; rfl, fun hw => ?_⟩
  simp only [hi]
  show Fit.loadCheckpoint (CP.method E c) (CkPath.resolve w .own) none w = _
  rw [CkPath.resolve, hw]
  rfl

example : "From_Checkpoint".toLower = "from_checkpoint" ∧ (CP.newObject none none 20 [] none).file = none := by
  refine ⟨?_, rfl⟩
  rw [String.toLower, ← String.toList_inj, String.toList_map]; decide

/-! ## C62 -/

theorem pyGet_nat_error {β : Type} {l : List β} {i : ℕ} (h : l.length ≤ i) :
    pyGet l (i : Int) = .error .indexError :=
  pyGet_error (norm_none_of_not_isMode fun k hk => by
    rcases hk with ⟨h1, h2 | h2⟩ <;> omega)

theorem checkValidFrom_iff {rank : ℕ} {xs : List ℕ} : ∀ {i : ℕ} {fs : List (NDArray ℝ)},
    CP.checkValidFrom rank xs i fs = .ok () ↔
      ∀ k (hk : k < fs.length), ∃ n, xs[i + k]? = some n ∧ fs[k].shape = [n, rank]
  | i, [] => by simp [CP.checkValidFrom]
  | i, F :: Fs => by
    have ih := checkValidFrom_iff (rank := rank) (xs := xs) (i := i + 1) (fs := Fs)
    have hsplit : (∀ k (hk : k < (F :: Fs).length), ∃ n, xs[i + k]? = some n ∧ (F :: Fs)[k].shape = [n, rank]) ↔
        (∃ n, xs[i]? = some n ∧ F.shape = [n, rank]) ∧
        ∀ k (hk : k < Fs.length), ∃ n, xs[i + 1 + k]? = some n ∧ Fs[k].shape = [n, rank] := by
      constructor
      · intro h
        refine ⟨h 0 (Nat.succ_pos _), fun k hk => ?_⟩
        have := h (k + 1) (by simpa using hk)
        rw [show i + 1 + k = i + (k + 1) by ring]
        simpa using this
      · rintro ⟨h1, h2⟩ k hk
        cases k with
        | zero => simpa using h1
        | succ k =>
          have := h2 k (by simpa using hk)
          rw [show i + (k + 1) = i + 1 + k by ring]
          simpa using this
    rw [hsplit, CP.checkValidFrom]
    split
    · rename_i len r hs
      by_cases hr : r ≠ rank
      · rw [if_pos hr]
        constructor
        · intro h; cases h
        · rintro ⟨⟨n, -, h⟩, -⟩
          rw [hs] at h
          exact absurd (by simpa using congrArg (fun l => l.getD 1 0) h) hr
      · push Not at hr
        subst hr
        rw [if_neg (by simp)]
        cases hx : xs[i]? with
        | none =>
          rw [pyGet_nat_error (List.getElem?_eq_none_iff.1 hx)]
          constructor
          · intro h; cases h
          · rintro ⟨⟨n, h, -⟩, -⟩; cases h
        | some n =>
          rw [pyGet_of_getElem? hx, bind_ok]
          by_cases hl : len ≠ n
          · rw [if_pos hl]
            constructor
            · intro h; cases h
            · rintro ⟨⟨n', h1, h2⟩, -⟩
              cases h1
              rw [hs] at h2
              exact absurd (by simpa using congrArg (fun l => l.getD 0 0) h2) hl
          · push Not at hl
            subst hl
            rw [if_neg (by simp), ih]
            simp [hs]
    · rename_i hs
      constructor
      · intro h; cases h
      · rintro ⟨⟨n, -, h⟩, -⟩
        exact absurd h (hs n rank)

/-- `_check_valid_components` raises nothing but `ValueError` when there are not more matrices than modes. -/
theorem checkValidFrom_error {rank : ℕ} {xs : List ℕ} {e : PyErr} : ∀ {i : ℕ} {fs : List (NDArray ℝ)},
    i + fs.length ≤ xs.length → CP.checkValidFrom rank xs i fs = .error e → e = .valueError
  | i, [], _, h => by simp [CP.checkValidFrom] at h
  | i, F :: Fs, hl, h => by
    rw [CP.checkValidFrom] at h
    split at h
    · split at h
      · cases h; rfl
      · simp only [List.length_cons] at hl
        rw [pyGet_ok (norm_nat (by omega)), bind_ok] at h
        split at h
        · cases h; rfl
        · exact checkValidFrom_error (by omega) h
    · cases h; rfl

/-- C62, the part that holds: a decomposition with as many factor matrices as `X` has modes is accepted exactly
if every factor matrix has the length of its mode and the rank of the model, and `ValueError` is raised
otherwise. (Missing: other numbers of factor matrices, see `C62_fewer_accepted`, `C62_more_index_error`.) -/
theorem C62_check_partial {rank : ℕ} {xs : List ℕ} {t : KruskalTensor} (hn : t.factorMatrices.length = xs.length) :
    (CP.checkValid rank xs t = .ok () ↔ Factors t.factorMatrices xs rank) ∧
    (¬ Factors t.factorMatrices xs rank → CP.checkValid rank xs t = .error .valueError) := by
  have h1 : CP.checkValid rank xs t = .ok () ↔ Factors t.factorMatrices xs rank := by
    rw [CP.checkValid, checkValidFrom_iff, Factors, List.forall₂_iff_get]
    constructor
    · intro h
      refine ⟨hn, fun k hk hk' => ?_⟩
      obtain ⟨n, h1, h2⟩ := h k hk
      rw [Nat.zero_add, List.getElem?_eq_getElem hk'] at h1
      cases h1
      simpa using h2
    · rintro ⟨-, h⟩ k hk
      refine ⟨xs[k], by rw [Nat.zero_add, List.getElem?_eq_getElem], ?_⟩
      simpa using h k hk (by omega)
  refine ⟨h1, fun h => ?_⟩
  cases hc : CP.checkValid rank xs t with
  | ok u => exact absurd (h1.1 hc) h
  | error e => rw [checkValidFrom_error (i := 0) (fs := t.factorMatrices) (by omega) hc]

/-- C62 is false: any number of the right factor matrices from the left is accepted, even none. -/
theorem C62_fewer_accepted {rank : ℕ} {xs ys : List ℕ} {t : KruskalTensor}
    (h : Factors t.factorMatrices xs rank) : CP.checkValid rank (xs ++ ys) t = .ok () := by
  rw [CP.checkValid, checkValidFrom_iff]
  intro k hk
  have hk' : k < xs.length := by rw [← h.length_eq]; exact hk
  refine ⟨xs[k], ?_, by rw [h.shape_get hk]; simp [List.getD, hk']⟩
  rw [Nat.zero_add, List.getElem?_append_left hk', List.getElem?_eq_getElem]

/-- C62 is false: with more factor matrices than modes `IndexError` is raised instead of `ValueError`, when the
first ones fit and the next one has the right rank. -/
theorem C62_more_index_error {rank : ℕ} {xs : List ℕ} {t : KruskalTensor} {fs : List (NDArray ℝ)} {F : NDArray ℝ}
    {gs : List (NDArray ℝ)} {n : ℕ} (ht : t.factorMatrices = fs ++ F :: gs) (h : Factors fs xs rank)
    (hF : F.shape = [n, rank]) : CP.checkValid rank xs t = .error .indexError := by
  have key : ∀ (fs : List (NDArray ℝ)) (i : ℕ), xs.length = i + fs.length →
      (∀ k (hk : k < fs.length), ∃ n, xs[i + k]? = some n ∧ fs[k].shape = [n, rank]) →
      CP.checkValidFrom rank xs i (fs ++ F :: gs) = .error .indexError := by
    intro fs
    induction fs with
    | nil =>
      intro i hi _
      rw [List.nil_append, CP.checkValidFrom, hF]
      simp only [ne_eq, not_true_eq_false, if_false]
      rw [pyGet_nat_error (by simp at hi; omega)]; rfl
    | cons G fs ih =>
      intro i hi hk
      obtain ⟨n, h1, h2⟩ := hk 0 (by simp)
      simp only [Nat.add_zero, List.getElem_cons_zero] at h1 h2
      rw [List.cons_append, CP.checkValidFrom, h2]
      simp only [ne_eq, not_true_eq_false, if_false]
      rw [pyGet_of_getElem? h1, bind_ok]
      simp only [not_true_eq_false, if_false]
      refine ih (i + 1) (by simp only [List.length_cons] at hi; omega) fun k hk' => ?_
      obtain ⟨n, h1, h2⟩ := hk (k + 1) (by simpa using hk')
      exact ⟨n, by rw [show i + 1 + k = i + (k + 1) by ring]; exact h1, by simpa using h2⟩
  rw [CP.checkValid, ht]
  refine key fs 0 (by rw [h.length_eq]; simp) fun k hk => ?_
  have hk' : k < xs.length := by rw [← h.length_eq]; exact hk
  exact ⟨xs[k], by rw [Nat.zero_add, List.getElem?_eq_getElem], by rw [h.shape_get hk]; simp [List.getD, hk']⟩

/-- Non-vacuity of C62: an accepted and a rejected decomposition, and one with too few and too many matrices. -/
example : Factors exKT.factorMatrices [3, 2, 4] 2 ∧ ¬ Factors exKT.factorMatrices [3, 2, 5] 2 := by
  refine ⟨exKT_wf.factors, fun h => ?_⟩
  have h1 := exKT_wf.factors.shape_get (k := 2) (by rw [h.length_eq]; decide)
  rw [h.shape_get] at h1
  simp at h1

/-! ## C68: the starting point of `CP_ALS` -/

theorem absConstrained_ok {sizes : List ℕ} {R : ℕ} :
    ∀ {bs : List Bool} {mode : ℕ} {fs : List (NDArray ℝ)}, Factors fs sizes R → mode + bs.length ≤ sizes.length →
    ∃ fs', CP.absConstrained mode bs fs = .ok fs' ∧ Factors fs' sizes R ∧
      (∀ k, bs[k]? = some true → fs'[mode + k]? = (fs[mode + k]?).map (NDArray.map abs)) ∧
      (∀ j, (∀ k, j = mode + k → bs[k]? ≠ some true) → fs'[j]? = fs[j]?)
  | [], mode, fs, hf, _ => ⟨fs, rfl, hf, by simp, by simp⟩
  | b :: bs, mode, fs, hf, hl => by
    have hm : mode < fs.length := by rw [hf.length_eq]; simp at hl; omega
    have hF : Factors (if b then fs.set mode (fs[mode].map abs) else fs) sizes R := by
      split
      · exact factors_set hf (by rw [shape_map]; exact hf.shape_get hm)
      · exact hf
    obtain ⟨fs', h1, h2, h3, h4⟩ := absConstrained_ok (bs := bs) (mode := mode + 1) hF (by simp at hl; omega)
    refine ⟨fs', ?_, h2, fun k hk => ?_, fun j hj => ?_⟩
    · rw [CP.absConstrained, pyGet_ok (norm_nat hm), bind_ok]; exact h1
    · cases k with
      | zero =>
        have hb : b = true := by simpa using hk
        rw [h4 _ fun k hk => by omega, if_pos hb]
        simp [hm]
      | succ k =>
        rw [show mode + (k + 1) = mode + 1 + k by ring, h3 k (by simpa using hk)]
        split
        · rw [List.getElem?_set_ne (by omega)]
        · rfl
    · rw [h4 j fun k hk => by
        have := hj (k + 1) (by omega)
        simpa using this]
      split
      · rename_i hb
        have hne : mode ≠ j := fun h => hj 0 (by omega) (by simp [hb])
        rw [List.getElem?_set_ne hne]
      · rfl

/-- C68. The random starting point of `CP_ALS`: unit weights, factor matrices of the right sizes whose columns
have norm `n / (n + eps)` and the direction of the drawn columns (up to signs in constrained modes), and no negative entry in a mode with a non-negativity constraint, whatever numbers
are drawn. -/
theorem C68_cp_start (draw : KruskalTensor.RandomMethod → ℕ → ℕ → ℕ → ℝ) {X : NDArray ℝ} (hne : X.shape ≠ [])
    (R : ℕ) {nn : Option (List Bool)} (hnn : ∀ l, nn = some l → l.length ≤ X.shape.length) :
    ∃ t, CP.initRandom draw R nn X = .ok t ∧ t.WF X.shape R ∧ (∀ r < R, t.weights.get [r] = 1) ∧
      ∀ k (hk : k < X.shape.length), ∃ F G, t.factorMatrices[k]? = some F ∧ G.shape = [X.shape[k], R] ∧
        (∀ i < X.shape[k], ∀ r < R, G.get [i, r] = draw .normal k i r) ∧
        (∀ r < R, colLen F X.shape[k] r =
          colLen G X.shape[k] r / (colLen G X.shape[k] r + 1e-15)) ∧
        (∀ i < X.shape[k], ∀ r < R, F.get [i, r] =
          (if (nn.bind fun l => l[k]?) = some true then |G.get [i, r]| else G.get [i, r]) / (colLen G X.shape[k] r + 1e-15)) ∧
        ((nn.bind fun l => l[k]?) = some true → ∀ i < X.shape[k], ∀ r < R, 0 ≤ F.get [i, r]) := by
  obtain ⟨t, h1, h2, h3, h4⟩ := C68_kruskal_random_init draw hne R (eps := 1e-15)
    (by norm_num) (meth := "normal") (μ := .normal) (Or.inl ⟨rfl, rfl⟩)
  cases hl : nn with
  | none =>
    refine ⟨t, by rw [CP.initRandom, h1]; rfl, h2, h3, fun k hk => ?_⟩
    obtain ⟨F, G, g1, g2, g3, g5, g4⟩ := h4 k hk
    exact ⟨F, G, g1, g2, g3, g4, fun i hi r hr => by rw [g5 i hi r hr]; simp, fun h => by simp at h⟩
  | some l =>
    obtain ⟨fs, f1, f2, f3, f4⟩ := absConstrained_ok (bs := l) (mode := 0) h2.factors (by
      have := hnn l hl; omega)
    refine ⟨{ t with factorMatrices := fs }, by rw [CP.initRandom, h1, bind_ok]; simp only [f1, bind_ok]; rfl,
      ⟨h2.rank, f2, h2.weights⟩, h3, fun k hk => ?_⟩
    obtain ⟨F, G, g1, g2, g3, g5, g4⟩ := h4 k hk
    have hF : F.shape = [X.shape[k], R] := by
      have := h2.factors.shape_get (k := k) (by rw [h2.factors.length_eq]; exact hk)
      obtain ⟨hk', hF⟩ := List.getElem?_eq_some_iff.1 g1
      rw [← hF, this]; simp [List.getD, hk]
    by_cases hb : l[k]? = some true
    · have hf := f3 k hb
      rw [Nat.zero_add, g1] at hf
      have hget : ∀ i < X.shape[k], ∀ r < R, (F.map abs).get [i, r] = |F.get [i, r]| := by
        intro i hi r hr
        rw [get_map]
        rw [hF]; simp [hi, hr]
      refine ⟨F.map abs, G, hf, g2, g3, fun r hr => ?_, fun i hi r hr => ?_, fun _ i hi r hr => ?_⟩
      · rw [← g4 r hr]
        unfold colLen
        refine congrArg Real.sqrt (Finset.sum_congr rfl fun i hi => ?_)
        rw [hget i (Finset.mem_range.1 hi) r hr, sq_abs]
      · rw [hget i hi r hr, g5 i hi r hr, if_pos (by simpa using hb), abs_div,
          abs_of_pos (a := colLen G X.shape[k] r + 1e-15) (by have := colLen_nonneg G X.shape[k] r; positivity)]
      · rw [hget i hi r hr]; exact abs_nonneg _
    · have hf := f4 k (fun k' hk' => by rw [Nat.zero_add] at hk'; subst hk'; exact hb)
      rw [g1] at hf
      exact ⟨F, G, hf, g2, g3, g4, fun i hi r hr => by rw [g5 i hi r hr, if_neg (by simpa using hb)],
        fun h => absurd (by simpa using h) hb⟩

/-- Non-vacuity: a constraint on the last two of three modes. -/
example : ∃ (X : NDArray ℝ) (nn : Option (List Bool)), X.shape ≠ [] ∧ nn = some [false, true, true] ∧
    ∀ l, nn = some l → l.length ≤ X.shape.length :=
  ⟨ofFn [2, 3, 4] fun _ => 1, some [false, true, true], by simp, rfl, by simp⟩

/-! ## C73: SVD initialisation -/

/-- Contract of the first component of `np.linalg.svd(A)` for an `m × n` matrix: a square orthogonal matrix whose
columns are eigenvectors of `A Aᵀ`, the largest eigenvalues first. -/
structure IsFullU (A U : NDArray ℝ) (m n : ℕ) : Prop where
  shape : U.shape = [m, m]
  orth : (mat U m m).transpose * mat U m m = 1
  eig : ∃ l : Fin m → ℝ, Antitone l ∧
    mat A m n * (mat A m n).transpose * mat U m m = mat U m m * Matrix.diagonal l

/-- The SVD routine meets its contract on every matrix. -/
def FullSVDOk (U : NDArray ℝ → NDArray ℝ) : Prop :=
  ∀ A m n, A.shape = [m, n] → IsFullU A (U A) m n

/-- Non-vacuity: there is a routine with this contract. -/
theorem exists_fullSVD : ∃ U, FullSVDOk U := by
  have h : ∀ A : NDArray ℝ, ∃ U : NDArray ℝ, ∀ m n, A.shape = [m, n] → IsFullU A U m n := by
    intro A
    by_cases hA : ∃ m n, A.shape = [m, n]
    · obtain ⟨m, n, hA⟩ := hA
      obtain ⟨V, l, h1, h2, h3⟩ := LA.exists_eig (G := mat A m n * (mat A m n).transpose) (by
        rw [Matrix.transpose_mul, Matrix.transpose_transpose])
      refine ⟨ofMatrix V, fun m' n' hA' => ?_⟩
      rw [hA] at hA'
      simp only [List.cons.injEq, and_true] at hA'
      obtain ⟨rfl, rfl⟩ := hA'
      exact ⟨rfl, by rw [mat_ofMatrix]; exact h2, l, h1, by rw [mat_ofMatrix]; exact h3⟩
    · exact ⟨A, fun m n h => absurd ⟨m, n, h⟩ hA⟩
  choose U hU using h
  exact ⟨U, fun A m n hA => hU A m n hA⟩

/-- C73. With `init='svd'` the starting factor matrices have the right sizes and orthonormal columns, the weights
are one, and the columns of mode `k` capture at least as much of the mode-`k` unfolding of `X` as any other
orthonormal columns. -/
theorem C73_svd_start {U : NDArray ℝ → NDArray ℝ} (hU : FullSVDOk U) {X : NDArray ℝ} (hne : X.shape ≠ [])
    (h0 : ∀ n ∈ X.shape, n ≠ 0) {R : ℕ} (hR : ∀ n ∈ X.shape, R ≤ n) :
    ∃ t, CP.initSvd U R X = .ok t ∧ t.WF X.shape R ∧ (∀ r < R, t.weights.get [r] = 1) ∧
      ∀ k (hk : k < X.shape.length), ∃ F M, t.factorMatrices[k]? = some F ∧ unfold X k = .ok M ∧
        (mat F X.shape[k] R).transpose * mat F X.shape[k] R = 1 ∧
        ∀ G : Matrix (Fin X.shape[k]) (Fin R) ℝ, G.transpose * G = 1 →
          LA.fsq (G.transpose * mat M X.shape[k] (X.shape.eraseIdx k).prod) ≤
          LA.fsq ((mat F X.shape[k] R).transpose * mat M X.shape[k] (X.shape.eraseIdx k).prod) := by
  set d := X.shape.length with hd
  set un : ℕ → NDArray ℝ := fun k => ofMat (X.shape.getD k 0) (X.shape.eraseIdx k).prod fun i p =>
      X.get ((unravel (X.shape.eraseIdx k) p).insertIdx k i) with hun
  have hunf : ∀ k < d, unfold X k = .ok (un k) := by
    intro k hk
    exact unfold_eq X (norm_nat hk) (by
      rw [show X.shape.getD k 0 = X.shape[k] by simp [List.getD, hd ▸ hk]]
      exact h0 _ (List.getElem_mem _))
  set fs := (List.range d).map fun k => Parafac2Tensor.takeCols (U (un k)) R with hfs
  have hmap : ((List.range d).mapM fun (i : ℕ) => (do
      let M ← unfold X i
      pure (Parafac2Tensor.takeCols (U M) R) : Py (NDArray ℝ))) = .ok fs := by
    refine mapM_ok fun k hk => ?_
    rw [hunf k (List.mem_range.1 hk), bind_ok]; rfl
  have hsh : ∀ k (hk : k < d), (U (un k)).shape = [X.shape[k], X.shape[k]] := by
    intro k hk
    exact (hU (un k) X.shape[k] (X.shape.eraseIdx k).prod (by
      simp [hun, List.getD, hd ▸ hk])).shape
  have htk : ∀ k (hk : k < d), (Parafac2Tensor.takeCols (U (un k)) R).shape = [X.shape[k], R] := by
    intro k hk
    rw [Parafac2Tensor.takeCols, hsh k hk]
    simp [hR X.shape[k] (List.getElem_mem _)]
  have hF : Factors fs X.shape R := by
    refine List.forall₂_iff_get.2 ⟨by simp [hfs, hd], fun k h1 h2 => ?_⟩
    simp only [hfs, List.get_eq_getElem, List.getElem_map, List.getElem_range]
    exact htk k h2
  have hfne : fs ≠ [] := by
    intro h; exact hne (List.length_eq_zero_iff.1 (by rw [← hF.length_eq, h]; rfl))
  have hmem : ∀ f ∈ fs, ∃ m, f.shape = [m, R] := by
    intro f hf
    obtain ⟨k, hk, rfl⟩ := List.mem_map.1 hf
    exact ⟨_, htk k (List.mem_range.1 hk)⟩
  obtain ⟨t, h1, h2, h3, h4, -, h6⟩ := C15_init_ok (w := none) (R := R) hfne
    (fun f hf => by obtain ⟨m, h⟩ := hmem f hf; exact ⟨m, R, h⟩)
    ⟨fun f hf => by obtain ⟨m, h⟩ := hmem f hf; simp [h], by simp⟩
  refine ⟨t, ?_, ⟨h2, h3 ▸ hF, h4⟩, h6 rfl, fun k hk => ?_⟩
  · unfold CP.initSvd
    cases hm : X.shape.min? with
    | none => exact absurd (List.min?_eq_none_iff.1 hm) hne
    | some m =>
      have hm' := List.min?_mem hm
      simp only []
      rw [if_neg (by have := hR m hm'; omega), hmap, bind_ok, h1]
  · have hun' : (un k).shape = [X.shape[k], (X.shape.eraseIdx k).prod] := by simp [hun, List.getD, hk]
    have hc := hU (un k) _ _ hun'
    have hRk : R ≤ X.shape[k] := hR _ (List.getElem_mem _)
    have hmat : mat (Parafac2Tensor.takeCols (U (un k)) R) X.shape[k] R =
        LA.firstCols hRk (mat (U (un k)) X.shape[k] X.shape[k]) := by
      ext i j
      have hmin : min R X.shape[k] = R := min_eq_left hRk
      simp only [mat, LA.firstCols, Parafac2Tensor.takeCols, hc.shape, List.getD_cons_zero,
        List.getD_cons_succ, hmin, Fin.val_castLE]
      rw [get_ofMat i.2 j.2]
    refine ⟨Parafac2Tensor.takeCols (U (un k)) R, un k, by rw [h3]; simp [hfs, hd ▸ hk], hunf k hk, ?_, fun G hG => ?_⟩
    · rw [hmat]; exact LA.firstCols_orth hRk hc.orth
    · obtain ⟨l, hl, he⟩ := hc.eig
      rw [hmat]
      exact LA.ky_fan hl hc.orth he hRk hG

/-- C73. A rank larger than some dimension is rejected. -/
theorem C73_svd_rank {U : NDArray ℝ → NDArray ℝ} {X : NDArray ℝ} {R n : ℕ} (hn : n ∈ X.shape) (hR : n < R) :
    CP.initSvd U R X = .error .valueError := by
  unfold CP.initSvd
  cases hm : X.shape.min? with
  | none => rfl
  | some m =>
    have : m ≤ n := (List.min?_eq_some_iff.1 hm).2 n hn
    simp only []
    rw [if_pos (by omega)]

/-- Non-vacuity of C73. -/
example : ∃ (X : NDArray ℝ) (R : ℕ), X.shape ≠ [] ∧ (∀ n ∈ X.shape, n ≠ 0) ∧ (∀ n ∈ X.shape, R ≤ n) ∧ 0 < R :=
  ⟨ofFn [2, 3, 4] fun _ => 1, 2, by simp, by simp, by simp, by simp⟩

end
end TK
