import Verif.Lemmas.Descent
import Verif.Spec.P2Descent
import Verif.Props.Parafac2Iter

/-!
# Limits of alternating PARAFAC2 updates
-/

namespace TK
open NDArray Matrix Filter Topology

noncomputable section

variable {X : List (NDArray ℝ)} {I R : ℕ} {Js : List ℕ}

/-- The error as a function of the list of factor matrices. -/
def p2Loss (X P fs : List (NDArray ℝ)) (I : ℕ) (Js : List ℕ) (R : ℕ) : ℝ :=
  p2Err X P (modeMat fs 0) (modeMat fs 1) (modeMat fs 2) I Js R

/-- The part of the error that does not depend on the factor matrices. -/
def p2Rest (X P : List (NDArray ℝ)) (I : ℕ) (Js : List ℕ) (R : ℕ) : ℝ :=
  ∑ k ∈ Finset.range Js.length, (LA.fsq (mat (nth X k) I (Js.getD k 0))
    - LA.fsq (mat (nth X k) I (Js.getD k 0) * mat (nth P k) (Js.getD k 0) R))

theorem projected_err (X P : List (NDArray ℝ)) (A D C : NDArray ℝ) (I : ℕ) (Js : List ℕ) (R : ℕ) :
    sqErr (p2Projected X P I Js R) (fun _ => 1) [A, D, C] R
      = ∑ k ∈ Finset.range Js.length, LA.fsq (mat (nth X k) I (Js.getD k 0) * mat (nth P k) (Js.getD k 0) R
        - mat (p2Score A D C I R k) I R) := by
  have e1 : sqErr (p2Projected X P I Js R) (fun _ => 1) [A, D, C] R = ∑ i ∈ Finset.range I, ∑ q ∈ Finset.range R,
      ∑ k ∈ Finset.range Js.length,
      (∑ j ∈ Finset.range (Js.getD k 0), (nth X k).get [i, j] * (nth P k).get [j, q]
        - (p2Score A D C I R k).get [i, q]) ^ 2 := by
    unfold sqErr
    show sumIdx [I, R, Js.length] _ = _
    simp only [sumIdx_cons, sumIdx_nil]
    refine Finset.sum_congr rfl fun i hi => Finset.sum_congr rfl fun q hq => Finset.sum_congr rfl fun k hk => ?_
    have hi := Finset.mem_range.1 hi
    have hq := Finset.mem_range.1 hq
    have hk := Finset.mem_range.1 hk
    rw [p2Projected, get_ofFn (by simp [hi, hq, hk]), p2Score, get_ofMat hi hq]
    congr 2
    unfold cpEntry
    refine Finset.sum_congr rfl fun r hr => ?_
    simp only [rankOne]
    ring
  rw [e1]
  have e2 : ∀ i, ∑ q ∈ Finset.range R, ∑ k ∈ Finset.range Js.length,
      (∑ j ∈ Finset.range (Js.getD k 0), (nth X k).get [i, j] * (nth P k).get [j, q]
        - (p2Score A D C I R k).get [i, q]) ^ 2 = ∑ k ∈ Finset.range Js.length, ∑ q ∈ Finset.range R,
      (∑ j ∈ Finset.range (Js.getD k 0), (nth X k).get [i, j] * (nth P k).get [j, q]
        - (p2Score A D C I R k).get [i, q]) ^ 2 := fun i => Finset.sum_comm
  simp only [e2]
  rw [Finset.sum_comm]
  refine Finset.sum_congr rfl fun k _ => ?_
  unfold LA.fsq
  rw [Finset.sum_range]
  refine Finset.sum_congr rfl fun i _ => ?_
  rw [Finset.sum_range]
  refine Finset.sum_congr rfl fun q _ => ?_
  rw [Finset.sum_range]
  simp [Matrix.mul_apply, mat]

/-- With orthonormal projection matrices, the error is that of the CP model of the projected data up to a constant. -/
theorem p2Err_projected {P : List (NDArray ℝ)} (h : OrthoAll P Js R) (A D C : NDArray ℝ) :
    p2Err X P A D C I Js R = sqErr (p2Projected X P I Js R) (fun _ => 1) [A, D, C] R + p2Rest X P I Js R := by
  rw [P2State.p2Err_eq, projected_err, p2Rest, ← Finset.sum_add_distrib]
  refine Finset.sum_congr rfl fun k hk => ?_
  have hY := orthoCols_iff.1 (h k (Finset.mem_range.1 hk))
  have hY' : ((mat (nth P k) (Js.getD k 0) R)ᵀ) * ((mat (nth P k) (Js.getD k 0) R)ᵀ)ᵀ = 1 := by
    rw [transpose_transpose]; exact hY
  rw [← LA.pot_eq_of_orth hY', LA.pot_eq_projected, transpose_transpose]

theorem list3 {fs : List (NDArray ℝ)} (h : fs.length = 3) : [modeMat fs 0, modeMat fs 1, modeMat fs 2] = fs := by
  match fs, h with
  | [a, b, c], _ => rfl

theorem p2Loss_projected {P fs : List (NDArray ℝ)} (h : OrthoAll P Js R) (hf : fs.length = 3) :
    p2Loss X P fs I Js R = sqErr (p2Projected X P I Js R) (fun _ => 1) fs R + p2Rest X P I Js R := by
  rw [p2Loss, p2Err_projected h, list3 hf]

theorem p2Loss_nonneg (X P fs : List (NDArray ℝ)) (I : ℕ) (Js : List ℕ) (R : ℕ) : 0 ≤ p2Loss X P fs I Js R := by
  unfold p2Loss p2Err
  exact Finset.sum_nonneg fun _ _ => Finset.sum_nonneg fun _ _ => Finset.sum_nonneg fun _ _ => sq_nonneg _

/-! ## Continuity -/

theorem tendsto_p2Loss {l : Filter ℕ} {Ps Fs : ℕ → List (NDArray ℝ)} {P fs : List (NDArray ℝ)} (hP : FactorsTendTo l Ps P Js R)
    (hF : FactorsTendTo l Fs fs [I, R, Js.length] R) :
    Tendsto (fun j => p2Loss X (Ps j) (Fs j) I Js R) l (𝓝 (p2Loss X P fs I Js R)) := by
  unfold p2Loss p2Err
  refine tendsto_finsetSum _ fun k hk => tendsto_finsetSum _ fun i hi => tendsto_finsetSum _ fun j hj => ?_
  have hk := Finset.mem_range.1 hk
  have hi := Finset.mem_range.1 hi
  have hj := Finset.mem_range.1 hj
  refine (Tendsto.const_sub _ ?_).pow 2
  unfold p2Entry
  refine tendsto_finsetSum _ fun r hr => ?_
  have hr := Finset.mem_range.1 hr
  refine ((hF 0 (by simp) i hi r hr).mul (hF 2 (by simp) k hk r hr)).mul (tendsto_finsetSum _ fun q hq => ?_)
  have hq := Finset.mem_range.1 hq
  exact (hP k hk j hj q hq).mul (hF 1 (by simp) q hq r hr)

theorem orthoAll_of_tendsto {l : Filter ℕ} [l.NeBot] {Ps : ℕ → List (NDArray ℝ)} {P : List (NDArray ℝ)}
    (hP : FactorsTendTo l Ps P Js R) (h : ∀ j, OrthoAll (Ps j) Js R) : OrthoAll P Js R := by
  intro k hk a ha b hb
  have h1 : Tendsto (fun j => ∑ i ∈ Finset.range (Js.getD k 0), (nth (Ps j) k).get [i, a] * (nth (Ps j) k).get [i, b]) l
      (𝓝 (∑ i ∈ Finset.range (Js.getD k 0), (nth P k).get [i, a] * (nth P k).get [i, b])) :=
    tendsto_finsetSum _ fun i hi =>
      (hP k hk i (Finset.mem_range.1 hi) a ha).mul (hP k hk i (Finset.mem_range.1 hi) b hb)
  have h2 : Tendsto (fun j => ∑ i ∈ Finset.range (Js.getD k 0), (nth (Ps j) k).get [i, a] * (nth (Ps j) k).get [i, b]) l
      (𝓝 (if a = b then 1 else 0)) :=
    tendsto_const_nhds.congr fun j => (h j k hk a ha b hb).symm
  exact tendsto_nhds_unique h1 h2

/-! ## Steps -/

/-- One iteration: the best projection matrices for the factor matrices before, followed by `n` sweeps on the projected data. -/
structure P2Step (X : List (NDArray ℝ)) (I : ℕ) (Js : List ℕ) (R n : ℕ) (fs P' fs' : List (NDArray ℝ)) : Prop where
  orth : OrthoAll P' Js R
  proj : ∀ Q, OrthoAll Q Js R → p2Loss X P' fs I Js R ≤ p2Loss X Q fs I Js R
  inner : ∃ G : ℕ → ℕ → List (NDArray ℝ), G 0 0 = fs ∧ G n 0 = fs' ∧
    ∀ i < n, Sweep (p2Projected X P' I Js R) R (G i) ∧ G i 3 = G (i + 1) 0

theorem Sweep.p2_le {P : List (NDArray ℝ)} (ho : OrthoAll P Js R) {g : ℕ → List (NDArray ℝ)}
    (h : Sweep (p2Projected X P I Js R) R g) {m : ℕ} (hm : m < 3) {Y : NDArray ℝ} (hY : Y.shape = [[I, R, Js.length].getD m 0, R]) :
    p2Loss X P (g (m + 1)) I Js R ≤ p2Loss X P ((g m).set m Y) I Js R := by
  obtain ⟨F, -, opt⟩ := h.step m hm
  rw [p2Loss_projected ho (h.len (m + 1) hm), p2Loss_projected ho (by rw [List.length_set]; exact h.len m (show m ≤ 3 by omega))]
  have := opt Y hY
  linarith

theorem Sweep.p2_dist {P : List (NDArray ℝ)} (ho : OrthoAll P Js R) {g : ℕ → List (NDArray ℝ)}
    (h : Sweep (p2Projected X P I Js R) R g) {m : ℕ} (hm : m < 3) :
    modelDist [I, R, Js.length] (g m) (g (m + 1)) R = p2Loss X P (g m) I Js R - p2Loss X P (g (m + 1)) I Js R := by
  rw [p2Loss_projected ho (h.len (m + 1) hm), p2Loss_projected ho (h.len m (show m ≤ 3 by omega))]
  have := h.dist (m := m) hm
  have e : modelDist (p2Projected X P I Js R).shape (g m) (g (m + 1)) R = modelDist [I, R, Js.length] (g m) (g (m + 1)) R := rfl
  rw [← e, this]; ring

theorem modelDist_nonneg (shape : List ℕ) (fs gs : List (NDArray ℝ)) (R : ℕ) : 0 ≤ modelDist shape fs gs R :=
  sumIdx_nonneg fun _ _ => sq_nonneg _

theorem Sweep.p2_anti {P : List (NDArray ℝ)} (ho : OrthoAll P Js R) {g : ℕ → List (NDArray ℝ)}
    (h : Sweep (p2Projected X P I Js R) R g) {m : ℕ} (hm : m < 3) :
    p2Loss X P (g (m + 1)) I Js R ≤ p2Loss X P (g m) I Js R := by
  have h1 := h.p2_dist ho hm
  have h2 := modelDist_nonneg [I, R, Js.length] (g m) (g (m + 1)) R
  linarith

/-- Sweeps one after the other do not increase the error. -/
theorem sweeps_p2_anti {P : List (NDArray ℝ)} (ho : OrthoAll P Js R) {G : ℕ → ℕ → List (NDArray ℝ)} {n : ℕ}
    (h : ∀ i < n, Sweep (p2Projected X P I Js R) R (G i) ∧ G i 3 = G (i + 1) 0) {a b : ℕ} (hab : a ≤ b) (hb : b ≤ n) :
    p2Loss X P (G b 0) I Js R ≤ p2Loss X P (G a 0) I Js R := by
  induction b, hab using Nat.le_induction with
  | base => exact le_rfl
  | succ b hab ih =>
    obtain ⟨h1, h2⟩ := h b (by omega)
    rw [← h2]
    exact (((h1.p2_anti ho (m := 2) (by omega)).trans (h1.p2_anti ho (m := 1) (by omega))).trans
      (h1.p2_anti ho (m := 0) (by omega))).trans (ih (by omega))

namespace P2Step

variable {n : ℕ} {fs P' fs' : List (NDArray ℝ)}

/-- The error after an iteration is at most that before, and at most that with any projection matrices. -/
theorem le (h : P2Step X I Js R n fs P' fs') {Q : List (NDArray ℝ)} (hQ : OrthoAll Q Js R) :
    p2Loss X P' fs' I Js R ≤ p2Loss X Q fs I Js R := by
  obtain ⟨G, e0, en, hG⟩ := h.inner
  have := sweeps_p2_anti h.orth hG (Nat.zero_le n) le_rfl
  rw [e0, en] at this
  exact this.trans (h.proj Q hQ)

/-- The first sweep. -/
theorem first (h : P2Step X I Js R n fs P' fs') (hn : 0 < n) : ∃ g, Sweep (p2Projected X P' I Js R) R g ∧ g 0 = fs ∧
    p2Loss X P' fs' I Js R ≤ p2Loss X P' (g 3) I Js R := by
  obtain ⟨G, e0, en, hG⟩ := h.inner
  refine ⟨G 0, (hG 0 hn).1, e0, ?_⟩
  rw [(hG 0 hn).2, ← en]
  exact sweeps_p2_anti h.orth hG (by omega) le_rfl

/-- The last sweep. -/
theorem last (h : P2Step X I Js R n fs P' fs') (hn : 0 < n) : ∃ g, Sweep (p2Projected X P' I Js R) R g ∧ g 3 = fs' ∧
    p2Loss X P' (g 0) I Js R ≤ p2Loss X P' fs I Js R := by
  obtain ⟨G, e0, en, hG⟩ := h.inner
  refine ⟨G (n - 1), (hG (n - 1) (by omega)).1, ?_, ?_⟩
  · rw [(hG (n - 1) (by omega)).2, Nat.sub_add_cancel hn]; exact en
  · rw [← e0]
    exact sweeps_p2_anti h.orth hG (Nat.zero_le _) (by omega)

/-- The only sweep. -/
theorem only (h : P2Step X I Js R 1 fs P' fs') : ∃ g, Sweep (p2Projected X P' I Js R) R g ∧ g 0 = fs ∧ g 3 = fs' := by
  obtain ⟨G, e0, en, hG⟩ := h.inner
  exact ⟨G 0, (hG 0 one_pos).1, e0, by rw [(hG 0 one_pos).2]; exact en⟩

end P2Step

theorem FactorsTendTo.comp {l l' : Filter ℕ} {gs : ℕ → List (NDArray ℝ)} {fs : List (NDArray ℝ)} {sizes : List ℕ}
    (h : FactorsTendTo l gs fs sizes R) {φ : ℕ → ℕ} (hφ : Tendsto φ l' l) : FactorsTendTo l' (fun j => gs (φ j)) fs sizes R :=
  fun m hm i hi r hr => (h m hm i hi r hr).comp hφ

/-! ## Limits -/

section limits
variable {n : ℕ} {Ps Fs : ℕ → List (NDArray ℝ)} {P fs : List (NDArray ℝ)}

theorem p2Optimal_of_tendsto (hn : 0 < n) (hS : ∀ j, P2Step X I Js R n (Fs j) (Ps (j + 1)) (Fs (j + 1))) (hf : fs.length = 3)
    (hP : FactorsTendTo atTop Ps P Js R) (hF : FactorsTendTo atTop Fs fs [I, R, Js.length] R) :
    P2Optimal X P (modeMat fs 0) (modeMat fs 1) (modeMat fs 2) I Js R ∧
      (n = 1 → P2OptimalD X P (modeMat fs 0) (modeMat fs 1) (modeMat fs 2) I Js R) := by
  have hP1 := hP.comp (tendsto_add_atTop_nat 1)
  have hF1 := hF.comp (tendsto_add_atTop_nat 1)
  have hl : ∀ j, (Fs j).length = 3 := fun j => by
    obtain ⟨g, hg, e, -⟩ := (hS j).first hn
    rw [← e]; exact hg.len 0 (show 0 ≤ 3 by omega)
  have hlim := tendsto_p2Loss (X := X) hP1 hF1
  refine ⟨⟨orthoAll_of_tendsto hP1 fun j => (hS j).orth, fun Q hQ => ?_, fun Z hZ => ?_, fun Z hZ => ?_⟩, fun h1 Z hZ => ?_⟩
  · refine le_of_tendsto_of_tendsto' hlim (tendsto_p2Loss (X := X) (Ps := fun _ => Q) (P := Q)
      (fun _ _ _ _ _ _ => tendsto_const_nhds) hF) fun j => ?_
    exact (hS j).le hQ
  · have h2 := tendsto_p2Loss (X := X) hP1 (hF.set hl hf 0 Z)
    have e : p2Loss X P (fs.set 0 Z) I Js R = p2Err X P Z (modeMat fs 1) (modeMat fs 2) I Js R := by
      rw [p2Loss, modeMat_set_self (by omega), modeMat_set_ne (by omega), modeMat_set_ne (by omega)]
    rw [e] at h2
    refine le_of_tendsto_of_tendsto' hlim h2 fun j => ?_
    obtain ⟨g, hg, e0, hle⟩ := (hS j).first hn
    have h3 := hg.p2_le (hS j).orth (m := 0) (by omega) (Y := Z) hZ
    rw [e0] at h3
    exact hle.trans (((hg.p2_anti (hS j).orth (m := 2) (by omega)).trans (hg.p2_anti (hS j).orth (m := 1) (by omega))).trans h3)
  · have h2 := tendsto_p2Loss (X := X) hP1 (hF1.set (fun j => hl _) hf 2 Z)
    have e : p2Loss X P (fs.set 2 Z) I Js R = p2Err X P (modeMat fs 0) (modeMat fs 1) Z I Js R := by
      rw [p2Loss, modeMat_set_self (by omega), modeMat_set_ne (by omega), modeMat_set_ne (by omega)]
    rw [e] at h2
    refine le_of_tendsto_of_tendsto' hlim h2 fun j => ?_
    obtain ⟨g, hg, e3, -⟩ := (hS j).last hn
    have h3 := hg.p2_le (hS j).orth (m := 2) (by omega) (Y := Z) hZ
    obtain ⟨F, e4, -⟩ := hg.step 2 (show 2 < 3 by omega)
    rw [e3] at h3
    have e5 : (g 2).set 2 Z = (Fs (j + 1)).set 2 Z := by
      rw [← e3, show g 3 = (g 2).set 2 F from e4, List.set_set]
    rw [e5] at h3
    exact h3
  · subst h1
    choose g hg e0 e3 using fun j => (hS j).only
    have hmid : FactorsTendTo atTop (fun j => g j 1) fs [I, R, Js.length] R := by
      intro k hk i hi r hr
      by_cases hk0 : k = 0
      · subst hk0
        refine (hF1 0 hk i hi r hr).congr fun j => ?_
        show _ = (modeMat (g j 1) 0).get [i, r]
        rw [(hg j).after (n := 2) (m := 1) rfl (by omega), show g j (p2Projected X (Ps (j + 1)) I Js R).shape.length = g j 3 from rfl,
          e3]
      · refine (hF k hk i hi r hr).congr fun j => ?_
        show _ = (modeMat (g j 1) k).get [i, r]
        rw [(hg j).before (m := 1) (show 1 ≤ 3 by omega) (by omega), e0]
    have hl1 : ∀ j, (g j 1).length = 3 := fun j => (hg j).len 1 (show 1 ≤ 3 by omega)
    have h2 := tendsto_p2Loss (X := X) hP1 (hmid.set hl1 hf 1 Z)
    have e : p2Loss X P (fs.set 1 Z) I Js R = p2Err X P (modeMat fs 0) Z (modeMat fs 2) I Js R := by
      rw [p2Loss, modeMat_set_self (by omega), modeMat_set_ne (by omega), modeMat_set_ne (by omega)]
    rw [e] at h2
    refine le_of_tendsto_of_tendsto' hlim h2 fun j => ?_
    have h3 := (hg j).p2_le (hS j).orth (m := 1) (by omega) (Y := Z) hZ
    have h4 := (hg j).p2_anti (hS j).orth (m := 2) (by omega)
    rw [e3] at h4
    exact h4.trans h3

theorem p2Optimal_of_cluster (hn : 0 < n) (hS : ∀ j, P2Step X I Js R n (Fs j) (Ps (j + 1)) (Fs (j + 1)))
    (hf : fs.length = 3) {φ : ℕ → ℕ} (hφ : StrictMono φ)
    (hP : FactorsTendTo atTop (fun j => Ps (φ j)) P Js R)
    (hF : FactorsTendTo atTop (fun j => Fs (φ j)) fs [I, R, Js.length] R) (hI : Independent [I, R, Js.length] fs R) :
    P2Optimal X P (modeMat fs 0) (modeMat fs 1) (modeMat fs 2) I Js R ∧
      P2OptimalD X P (modeMat fs 0) (modeMat fs 1) (modeMat fs 2) I Js R := by
  -- the errors converge
  set e : ℕ → ℝ := fun j => p2Loss X (Ps (j + 1)) (Fs (j + 1)) I Js R with he
  have hanti : Antitone e := antitone_nat_of_succ_le fun j => (hS (j + 1)).le (hS j).orth
  have hbdd : BddBelow (Set.range e) := ⟨0, by rintro _ ⟨j, rfl⟩; exact p2Loss_nonneg _ _ _ _ _ _⟩
  have hlim := tendsto_atTop_ciInf hanti hbdd
  -- a step leads to each member of the subsequence
  set ψ : ℕ → ℕ := fun j => φ (j + 2) - 2 with hψ
  have hφ2 : ∀ j, φ (j + 2) = ψ j + 2 := fun j => by
    have := hφ.id_le (j + 2)
    simp only [id] at this
    have : j + 2 ≤ φ (j + 2) := this
    show φ (j + 2) = φ (j + 2) - 2 + 2
    omega
  have hψt : Tendsto ψ atTop atTop := tendsto_atTop_mono (fun j => by
    have : j + 2 ≤ φ (j + 2) := hφ.id_le (j + 2)
    show j ≤ φ (j + 2) - 2
    omega) tendsto_id
  have hP2 : FactorsTendTo atTop (fun j => Ps (ψ j + 2)) P Js R := by
    have := hP.comp (tendsto_add_atTop_nat 2)
    simpa only [hφ2] using this
  have hF2 : FactorsTendTo atTop (fun j => Fs (ψ j + 2)) fs [I, R, Js.length] R := by
    have := hF.comp (tendsto_add_atTop_nat 2)
    simpa only [hφ2] using this
  have hlimL := tendsto_p2Loss (X := X) hP2 hF2
  have hinf : p2Loss X P fs I Js R = ⨅ j, e j :=
    tendsto_nhds_unique hlimL (hlim.comp ((tendsto_add_atTop_nat 1).comp hψt))
  -- the last sweep of that step
  choose g hg e3 hle using fun j => (hS (ψ j + 1)).last hn
  have hlen : ∀ m ≤ 3, ∀ j, (g j m).length = 3 := fun m hm j => (hg j).len m hm
  have hdec : Tendsto (fun j => e (ψ j) - e (ψ j + 1)) atTop (𝓝 0) := by
    have := (hlim.comp hψt).sub (hlim.comp ((tendsto_add_atTop_nat 1).comp hψt))
    rw [sub_self] at this
    exact this
  have hdist : ∀ m < 3, Tendsto (fun j => modelDist [I, R, Js.length] (g j m) (g j (m + 1)) R) atTop (𝓝 0) := by
    intro m hm
    refine squeeze_zero (fun j => modelDist_nonneg _ _ _ _) (fun j => ?_) hdec
    have ho := (hS (ψ j + 1)).orth
    rw [(hg j).p2_dist ho hm]
    have h0 := (hg j).p2_anti ho (m := 0) (by omega)
    have h1 := (hg j).p2_anti ho (m := 1) (by omega)
    have h2 := (hg j).p2_anti ho (m := 2) (by omega)
    rw [e3 j] at h2
    have h3 := (hle j).trans ((hS (ψ j + 1)).proj _ (hS (ψ j)).orth)
    have hm' : m = 0 ∨ m = 1 ∨ m = 2 := by omega
    simp only [he]
    rcases hm' with rfl | rfl | rfl
    · simp only [zero_add] at h0 ⊢; linarith
    · simp only [zero_add] at h0 ⊢; linarith
    · simp only [zero_add] at h0 ⊢
      rw [show g j (2 + 1) = Fs (ψ j + 1 + 1) from e3 j]; linarith
  have hall : ∀ a ≤ 3, FactorsTendTo atTop (fun j => g j (3 - a)) fs [I, R, Js.length] R := by
    intro a
    induction a with
    | zero =>
      intro _
      have : (fun j => g j (3 - 0)) = fun j => Fs (ψ j + 2) := funext fun j => e3 j
      rw [this]; exact hF2
    | succ a ih =>
      intro ha
      have h1 := ih (by omega)
      have hm : 3 - (a + 1) < 3 := by omega
      have hma : 3 - (a + 1) + 1 = 3 - a := by omega
      set m := 3 - (a + 1) with hmdef
      have hset : ∀ j, g j m = (g j (3 - a)).set m (modeMat (g j m) m) := by
        intro j
        obtain ⟨F, eF, -⟩ := (hg j).step m hm
        rw [← hma, eF, List.set_set, modeMat_eq (by rw [hlen m (by omega)]; exact hm), List.set_getElem_self]
      have hfun : (fun j => g j m) = fun j => (g j (3 - a)).set m (modeMat (g j m) m) := funext hset
      rw [hfun]
      refine factor_recovered h1 (hlen _ (by omega)) hf hm hI fun idx hidx => ?_
      have h2 := tendsto_of_sumIdx_sq (hdist m hm) idx hidx
      have h3 := tendsto_cpEntry h1 (hlen _ (by omega)) hf (fun _ => 1) hidx
      have h4 := h3.add h2
      rw [add_zero] at h4
      refine h4.congr fun j => ?_
      rw [← hset j, hma]; ring
  have hblock : ∀ m < 3, ∀ Z : NDArray ℝ, Z.shape = [[I, R, Js.length].getD m 0, R] →
      p2Loss X P fs I Js R ≤ p2Loss X P (fs.set m Z) I Js R := by
    intro m hm Z hZ
    have h1 : FactorsTendTo atTop (fun j => g j (m + 1)) fs [I, R, Js.length] R := by
      have := hall (2 - m) (by omega)
      rwa [show 3 - (2 - m) = m + 1 by omega] at this
    have h2 : FactorsTendTo atTop (fun j => g j m) fs [I, R, Js.length] R := by
      have := hall (3 - m) (by omega)
      rwa [show 3 - (3 - m) = m by omega] at this
    refine le_of_tendsto_of_tendsto' (tendsto_p2Loss (X := X) hP2 h1)
      (tendsto_p2Loss (X := X) hP2 (h2.set (hlen m (by omega)) hf m Z)) fun j => ?_
    exact (hg j).p2_le (hS (ψ j + 1)).orth hm hZ
  refine ⟨⟨orthoAll_of_tendsto hP2 fun j => (hS (ψ j + 1)).orth, fun Q hQ => ?_, fun Z hZ => ?_, fun Z hZ => ?_⟩, fun Z hZ => ?_⟩
  · show p2Loss X P fs I Js R ≤ p2Loss X Q fs I Js R
    rw [hinf]
    refine le_of_tendsto_of_tendsto' (hlim.comp ((tendsto_add_atTop_nat 2).comp hψt)) (tendsto_p2Loss (X := X) (Ps := fun _ => Q) (P := Q)
      (fun _ _ _ _ _ _ => tendsto_const_nhds) hF2) fun j => ?_
    exact (hS (ψ j + 2)).le hQ
  · have := hblock 0 (by omega) Z hZ
    rwa [p2Loss, p2Loss, modeMat_set_self (by omega), modeMat_set_ne (by omega), modeMat_set_ne (by omega)] at this
  · have := hblock 2 (by omega) Z hZ
    rwa [p2Loss, p2Loss, modeMat_set_self (by omega), modeMat_set_ne (by omega), modeMat_set_ne (by omega)] at this
  · have := hblock 1 (by omega) Z hZ
    rwa [p2Loss, p2Loss, modeMat_set_self (by omega), modeMat_set_ne (by omega), modeMat_set_ne (by omega)] at this

/-- A model that cannot be improved by `A`, the blueprint matrix or `C` alone is stationary in them jointly. -/
theorem P2Optimal.stationary {A D C : NDArray ℝ} (h : P2Optimal X P A D C I Js R) (hD : P2OptimalD X P A D C I Js R) :
    P2Stationary X P A D C I Js R := by
  have hb : BlockOptimal (p2Projected X P I Js R) [A, D, C] R := by
    intro m hm Y hY
    have hm : m < 3 := hm
    interval_cases m
    · have := h.bestA Y hY
      rw [p2Err_projected h.orth, p2Err_projected h.orth] at this
      exact le_of_add_le_add_right this
    · have := hD Y hY
      rw [p2Err_projected h.orth, p2Err_projected h.orth] at this
      exact le_of_add_le_add_right this
    · have := h.bestC Y hY
      rw [p2Err_projected h.orth, p2Err_projected h.orth] at this
      exact le_of_add_le_add_right this
  intro A' D' C'
  have := (hb.stationary rfl (fun m => [A', D', C'].getD m (full [] 0))).add_const (p2Rest X P I Js R)
  refine this.congr_of_eventuallyEq (Filter.Eventually.of_forall fun t => ?_)
  show p2Err _ _ _ _ _ _ _ _ = _
  rw [p2Err_projected h.orth]
  rfl

end limits

end
end TK
