import Verif.Lemmas.Symmetry
import Verif.Props.CoreConsistency

/-!
# Property C129 (what the core consistency does not depend on)
-/

namespace TK
open NDArray

noncomputable section

/-- One mode of a problem after the rows were reordered by `ρ` and the components by `π`, and component `r` was multiplied by
`d r`. -/
structure ModeMoved (ρ π : Equiv.Perm ℕ) (d : ℕ → ℝ) (I F : ℕ) (A' A : NDArray ℝ) : Prop where
  shape' : A'.shape = [I, F]
  shape : A.shape = [I, F]
  rows : ∀ i, ρ i < I ↔ i < I
  get : ∀ i < I, ∀ r < F, A'.get [i, r] = d r * A.get [ρ i, π r]

variable {ρ ρ1 ρ2 ρ3 π : Equiv.Perm ℕ} {d d1 d2 d3 : ℕ → ℝ} {I J K F : ℕ} {X X' A A' B B' C C' : NDArray ℝ}

theorem ModeMoved.colLen (h : ModeMoved ρ π d I F A' A) {r : ℕ} (hr : r < F) :
    colLen A' I r = |d r| * colLen A I (π r) := by
  rw [TK.colLen, TK.colLen, ← Real.sqrt_sq_eq_abs, ← Real.sqrt_mul (sq_nonneg _), Finset.mul_sum,
    sum_move h.rows (fun i => d r ^ 2 * A.get [i, π r] ^ 2)]
  congr 1
  refine Finset.sum_congr rfl fun i hi => ?_
  rw [h.get i (Finset.mem_range.1 hi) r hr, mul_pow]

theorem ModeMoved.indep (h : ModeMoved ρ π d I F A' A) (hπ : ∀ r, π r < F ↔ r < F) (hd : ∀ r < F, d r ≠ 0)
    (iA : IndepColumns A I F) : IndepColumns A' I F := by
  intro v hv j hj
  have key : ∀ i < I, ∑ r ∈ Finset.range F, A.get [i, r] * (d (π.symm r) * v (π.symm r)) = 0 := by
    intro i hi
    have hi' : ρ.symm i < I := by rw [← h.rows, Equiv.apply_symm_apply]; exact hi
    rw [sum_move hπ, ← hv _ hi']
    refine Finset.sum_congr rfl fun r hr => ?_
    rw [h.get _ hi' r (Finset.mem_range.1 hr), Equiv.apply_symm_apply, Equiv.symm_apply_apply]
    ring
  have := iA _ key (π j) ((hπ j).2 hj)
  rw [Equiv.symm_apply_apply] at this
  exact (mul_eq_zero.1 this).resolve_left (hd j hj)

/-- How much a balanced column changes. It is close to the sign of `d r`, since `eps` is small. -/
def stretch (eps : ℝ) (π : Equiv.Perm ℕ) (d : ℕ → ℝ) (A : NDArray ℝ) (I r : ℕ) : ℝ :=
  d r * (colLen A I (π r) + eps) / (|d r| * colLen A I (π r) + eps)

theorem stretch_ne {eps : ℝ} (he : 0 < eps) {r : ℕ} (hd : d r ≠ 0) : stretch eps π d A I r ≠ 0 := by
  have := colLen_nonneg A I (π r)
  have h1 : 0 < colLen A I (π r) + eps := by linarith
  have h2 : 0 < |d r| * colLen A I (π r) + eps := by positivity
  exact div_ne_zero (mul_ne_zero hd h1.ne') h2.ne'

theorem stretch_sign {eps : ℝ} (he : 0 < eps) {r : ℕ} (hd : |d r| = 1) : stretch eps π d A I r = d r := by
  have := colLen_nonneg A I (π r)
  rw [stretch, hd, one_mul, mul_div_assoc, div_self (by linarith), mul_one]

theorem ModeMoved.balanced (h : ModeMoved ρ π d I F A' A) {eps : ℝ} (he : 0 < eps) {w w' : ℕ → ℝ}
    (hw : ∀ r < F, w' r = w (π r)) {i r : ℕ} (hi : i < I) (hr : r < F) :
    balanced eps w' A' I i r = stretch eps π d A I r * balanced eps w A I (ρ i) (π r) := by
  have := colLen_nonneg A I (π r)
  have h1 : TK.colLen A I (π r) + eps ≠ 0 := by positivity
  have h2 : |d r| * TK.colLen A I (π r) + eps ≠ 0 := by positivity
  rw [TK.balanced, TK.balanced, h.colLen hr, h.get i hi r hr, hw r hr, stretch]
  field_simp

/-- The core that belongs to the moved problem. -/
def movedCore (π : Equiv.Perm ℕ) (k1 k2 k3 : ℕ → ℝ) (G : ℕ → ℕ → ℕ → ℝ) (p q r : ℕ) : ℝ :=
  G (π p) (π q) (π r) / (k1 p * k2 q * k3 r)

theorem tuckerErr_moved {a a' b b' c c' : ℕ → ℕ → ℝ} {k1 k2 k3 : ℕ → ℝ} (hπ : ∀ r, π r < F ↔ r < F)
    (h1 : ∀ i, ρ1 i < I ↔ i < I) (h2 : ∀ i, ρ2 i < J ↔ i < J) (h3 : ∀ i, ρ3 i < K ↔ i < K)
    (hX : ∀ i < I, ∀ j < J, ∀ l < K, X'.get [i, j, l] = X.get [ρ1 i, ρ2 j, ρ3 l])
    (ha : ∀ i < I, ∀ r < F, a' i r = k1 r * a (ρ1 i) (π r)) (hb : ∀ i < J, ∀ r < F, b' i r = k2 r * b (ρ2 i) (π r))
    (hc : ∀ i < K, ∀ r < F, c' i r = k3 r * c (ρ3 i) (π r)) (n1 : ∀ r < F, k1 r ≠ 0) (n2 : ∀ r < F, k2 r ≠ 0)
    (n3 : ∀ r < F, k3 r ≠ 0) (G : ℕ → ℕ → ℕ → ℝ) :
    tuckerErr X' I J K F a' b' c' (movedCore π k1 k2 k3 G) = tuckerErr X I J K F a b c G := by
  simp only [tuckerErr]
  refine Eq.trans ?_ (sum_move h1 _).symm
  refine Finset.sum_congr rfl fun i hi => ?_
  refine Eq.trans ?_ (sum_move h2 _).symm
  refine Finset.sum_congr rfl fun j hj => ?_
  refine Eq.trans ?_ (sum_move h3 _).symm
  refine Finset.sum_congr rfl fun l hl => ?_
  rw [hX i (Finset.mem_range.1 hi) j (Finset.mem_range.1 hj) l (Finset.mem_range.1 hl)]
  congr 2
  refine Eq.trans ?_ (sum_move hπ _).symm
  refine Finset.sum_congr rfl fun p hp => ?_
  refine Eq.trans ?_ (sum_move hπ _).symm
  refine Finset.sum_congr rfl fun q hq => ?_
  refine Eq.trans ?_ (sum_move hπ _).symm
  refine Finset.sum_congr rfl fun r hr => ?_
  rw [ha i (Finset.mem_range.1 hi) p (Finset.mem_range.1 hp), hb j (Finset.mem_range.1 hj) q (Finset.mem_range.1 hq),
    hc l (Finset.mem_range.1 hl) r (Finset.mem_range.1 hr), movedCore]
  have := n1 p (Finset.mem_range.1 hp)
  have := n2 q (Finset.mem_range.1 hq)
  have := n3 r (Finset.mem_range.1 hr)
  field_simp

theorem tuckerErr_congr {a b c : ℕ → ℕ → ℝ} {G H : ℕ → ℕ → ℕ → ℝ} (h : ∀ p < F, ∀ q < F, ∀ r < F, G p q r = H p q r) :
    tuckerErr X I J K F a b c G = tuckerErr X I J K F a b c H := by
  simp only [tuckerErr]
  refine Finset.sum_congr rfl fun i _ => Finset.sum_congr rfl fun j _ => Finset.sum_congr rfl fun l _ => ?_
  congr 2
  refine Finset.sum_congr rfl fun p hp => Finset.sum_congr rfl fun q hq => Finset.sum_congr rfl fun r hr => ?_
  rw [h p (Finset.mem_range.1 hp) q (Finset.mem_range.1 hq) r (Finset.mem_range.1 hr)]

theorem offDiagonal_congr {G H : ℕ → ℕ → ℕ → ℝ} (h : ∀ p < F, ∀ q < F, ∀ r < F, G p q r = H p q r) :
    offDiagonal F G = offDiagonal F H := by
  refine Finset.sum_congr rfl fun p hp => Finset.sum_congr rfl fun q hq => Finset.sum_congr rfl fun r hr => ?_
  rw [h p (Finset.mem_range.1 hp) q (Finset.mem_range.1 hq) r (Finset.mem_range.1 hr)]

theorem coreSq_congr {G H : ℕ → ℕ → ℕ → ℝ} (h : ∀ p < F, ∀ q < F, ∀ r < F, G p q r = H p q r) : coreSq F G = coreSq F H := by
  refine Finset.sum_congr rfl fun p hp => Finset.sum_congr rfl fun q hq => Finset.sum_congr rfl fun r hr => ?_
  rw [h p (Finset.mem_range.1 hp) q (Finset.mem_range.1 hq) r (Finset.mem_range.1 hr)]

/-- The core consistency in terms of the best core of another arrangement of the same problem. -/
theorem core_moved {E : Ext} (hE : E.QROk) {eps : ℝ} (he : 0 < eps) (hX : X.shape = [I, J, K]) (hX' : X'.shape = [I, J, K])
    (hπ : ∀ r, π r < F ↔ r < F) (hA : ModeMoved ρ1 π d1 I F A' A) (hB : ModeMoved ρ2 π d2 J F B' B) (hC : ModeMoved ρ3 π d3 K F C' C)
    (hXX : ∀ i < I, ∀ j < J, ∀ l < K, X'.get [i, j, l] = X.get [ρ1 i, ρ2 j, ρ3 l])
    (hd : ∀ r < F, |d1 r * d2 r * d3 r| = 1)
    (iA : IndepColumns A I F) (iB : IndepColumns B J F) (iC : IndepColumns C K F) (hF : 0 < F) (normalized : Bool)
    {G : ℕ → ℕ → ℕ → ℝ} (hG : IsBestCore X I J K F (balanced eps (compSize [A, B, C] [I, J, K]) A I)
        (balanced eps (compSize [A, B, C] [I, J, K]) B J) (balanced eps (compSize [A, B, C] [I, J, K]) C K) G) :
    coreConsistency E X' A' B' C' normalized eps
      = .ok (FV.div (offDiagonal F (movedCore π (stretch eps π d1 A I) (stretch eps π d2 B J) (stretch eps π d3 C K) G))
          (if normalized then coreSq F (movedCore π (stretch eps π d1 A I) (stretch eps π d2 B J) (stretch eps π d3 C K) G)
            else F)).oneSub.times100 := by
  have hd0 : ∀ r < F, d1 r ≠ 0 ∧ d2 r ≠ 0 ∧ d3 r ≠ 0 := by
    intro r hr
    have := hd r hr
    refine ⟨?_, ?_, ?_⟩ <;> intro h0 <;> rw [h0] at this <;> simp at this
  have n1 : ∀ r < F, stretch eps π d1 A I r ≠ 0 := fun r hr => stretch_ne he (hd0 r hr).1
  have n2 : ∀ r < F, stretch eps π d2 B J r ≠ 0 := fun r hr => stretch_ne he (hd0 r hr).2.1
  have n3 : ∀ r < F, stretch eps π d3 C K r ≠ 0 := fun r hr => stretch_ne he (hd0 r hr).2.2
  have hw : ∀ r < F, compSize [A', B', C'] [I, J, K] r = compSize [A, B, C] [I, J, K] (π r) := by
    intro r hr
    simp only [compSize, modeProd, hA.colLen hr, hB.colLen hr, hC.colLen hr, mul_one]
    have := hd r hr
    rw [abs_mul, abs_mul] at this
    calc _ = (|d1 r| * |d2 r| * |d3 r|) * (colLen A I (π r) * (colLen B J (π r) * colLen C K (π r))) := by ring
      _ = _ := by rw [this, one_mul]
  obtain ⟨G2, hG2, e⟩ := coreConsistency_eq hE he hX' hA.shape' hB.shape' hC.shape'
    (hA.indep hπ (fun r hr => (hd0 r hr).1) iA) (hB.indep hπ (fun r hr => (hd0 r hr).2.1) iB)
    (hC.indep hπ (fun r hr => (hd0 r hr).2.2) iC) hF normalized
  have hmv := tuckerErr_moved (X := X) (X' := X') hπ hA.rows hB.rows hC.rows hXX
    (fun i hi r hr => hA.balanced he hw hi hr) (fun i hi r hr => hB.balanced he hw hi hr)
    (fun i hi r hr => hC.balanced he hw hi hr) n1 n2 n3
  -- the best core of the moved problem, moved back
  set H : ℕ → ℕ → ℕ → ℝ := fun p q r => G2 (π.symm p) (π.symm q) (π.symm r) *
    (stretch eps π d1 A I (π.symm p) * stretch eps π d2 B J (π.symm q) * stretch eps π d3 C K (π.symm r)) with hH
  have hback : ∀ p < F, ∀ q < F, ∀ r < F,
      movedCore π (stretch eps π d1 A I) (stretch eps π d2 B J) (stretch eps π d3 C K) H p q r = G2 p q r := by
    intro p hp q hq r hr
    simp only [movedCore, hH, Equiv.symm_apply_apply]
    exact mul_div_cancel_right₀ _ (mul_ne_zero (mul_ne_zero (n1 p hp) (n2 q hq)) (n3 r hr))
  have heq := hG2.unique (movedCore π (stretch eps π d1 A I) (stretch eps π d2 B J) (stretch eps π d3 C K) G) (by
    rw [← tuckerErr_congr hback, hmv, hmv]
    exact hG.best H)
  rw [e, offDiagonal_congr heq, coreSq_congr heq]

/-! ### order of the rows, order and signs of the components -/

theorem offDiagonal_signs (hπ : ∀ r, π r < F ↔ r < F) {k1 k2 k3 : ℕ → ℝ} (h1 : ∀ r < F, k1 r = d1 r) (h2 : ∀ r < F, k2 r = d2 r)
    (h3 : ∀ r < F, k3 r = d3 r) (s1 : ∀ r < F, |d1 r| = 1) (s2 : ∀ r < F, |d2 r| = 1) (s3 : ∀ r < F, |d3 r| = 1)
    (hd : ∀ r < F, d1 r * d2 r * d3 r = 1) (G : ℕ → ℕ → ℕ → ℝ) :
    offDiagonal F (movedCore π k1 k2 k3 G) = offDiagonal F G ∧ coreSq F (movedCore π k1 k2 k3 G) = coreSq F G := by
  have hsq : ∀ p < F, ∀ q < F, ∀ r < F, (k1 p * k2 q * k3 r) ^ 2 = 1 := by
    intro p hp q hq r hr
    rw [h1 p hp, h2 q hq, h3 r hr, ← sq_abs, abs_mul, abs_mul, s1 p hp, s2 q hq, s3 r hr]
    norm_num
  have hG : ∀ p < F, ∀ q < F, ∀ r < F, movedCore π k1 k2 k3 G p q r ^ 2 = G (π p) (π q) (π r) ^ 2 := by
    intro p hp q hq r hr
    rw [movedCore, div_pow, hsq p hp q hq r hr, div_one]
  constructor
  · rw [offDiagonal, offDiagonal]
    refine Eq.trans ?_ (sum_move hπ _).symm
    refine Finset.sum_congr rfl fun p hp => ?_
    refine Eq.trans ?_ (sum_move hπ _).symm
    refine Finset.sum_congr rfl fun q hq => ?_
    refine Eq.trans ?_ (sum_move hπ _).symm
    refine Finset.sum_congr rfl fun r hr => ?_
    have hp := Finset.mem_range.1 hp
    have hq := Finset.mem_range.1 hq
    have hr := Finset.mem_range.1 hr
    by_cases h : p = q ∧ q = r
    · obtain ⟨rfl, rfl⟩ := h
      rw [movedCore, h1 p hp, h2 p hp, h3 p hp, hd p hp, div_one]
      simp
    · rw [if_neg h, if_neg (by rintro ⟨e1, e2⟩; exact h ⟨π.injective e1, π.injective e2⟩), sub_zero, sub_zero, hG p hp q hq r hr]
  · rw [coreSq, coreSq]
    refine Eq.trans ?_ (sum_move hπ _).symm
    refine Finset.sum_congr rfl fun p hp => ?_
    refine Eq.trans ?_ (sum_move hπ _).symm
    refine Finset.sum_congr rfl fun q hq => ?_
    refine Eq.trans ?_ (sum_move hπ _).symm
    refine Finset.sum_congr rfl fun r hr => ?_
    exact hG p (Finset.mem_range.1 hp) q (Finset.mem_range.1 hq) r (Finset.mem_range.1 hr)

/-- **C129, components and rows.** The core consistency does not change when the components are listed in another order, when the
signs of the columns of a component are changed such that the component stays the same, when the rows of the modes are listed
in another order in the data and in the factor matrices, and when another numerical library computes the QR factorisation. -/
theorem C129_components {E E' : Ext} (hE : E.QROk) (hE' : E'.QROk) {eps : ℝ} (he : 0 < eps) (hX : X.shape = [I, J, K])
    (hX' : X'.shape = [I, J, K]) (hπ : ∀ r, π r < F ↔ r < F) (hA : ModeMoved ρ1 π d1 I F A' A) (hB : ModeMoved ρ2 π d2 J F B' B)
    (hC : ModeMoved ρ3 π d3 K F C' C) (hXX : ∀ i < I, ∀ j < J, ∀ l < K, X'.get [i, j, l] = X.get [ρ1 i, ρ2 j, ρ3 l])
    (s1 : ∀ r < F, |d1 r| = 1) (s2 : ∀ r < F, |d2 r| = 1) (s3 : ∀ r < F, |d3 r| = 1) (hd : ∀ r < F, d1 r * d2 r * d3 r = 1)
    (iA : IndepColumns A I F) (iB : IndepColumns B J F) (iC : IndepColumns C K F) (hF : 0 < F) (normalized : Bool) :
    coreConsistency E' X' A' B' C' normalized eps = coreConsistency E X A B C normalized eps := by
  obtain ⟨G, hG, e⟩ := coreConsistency_eq hE he hX hA.shape hB.shape hC.shape iA iB iC hF normalized
  rw [core_moved hE' he hX hX' hπ hA hB hC hXX (fun r hr => by rw [hd r hr, abs_one]) iA iB iC hF normalized hG, e]
  obtain ⟨e1, e2⟩ := offDiagonal_signs (F := F) hπ (fun r hr => stretch_sign (π := π) (A := A) (I := I) he (s1 r hr))
    (fun r hr => stretch_sign (π := π) (A := B) (I := J) he (s2 r hr))
    (fun r hr => stretch_sign (π := π) (A := C) (I := K) he (s3 r hr)) s1 s2 s3 hd G
  rw [e1, e2]

/-! ### order of the modes -/

/-- **C129, modes.** Exchanging the first two modes of the data and of the model does not change the core consistency. -/
theorem C129_first_modes {E E' : Ext} (hE : E.QROk) (hE' : E'.QROk) {eps : ℝ} (he : 0 < eps) (hX : X.shape = [I, J, K])
    (hX' : X'.shape = [J, I, K]) (hXX : ∀ i < I, ∀ j < J, ∀ l < K, X'.get [j, i, l] = X.get [i, j, l])
    (hA : A.shape = [I, F]) (hB : B.shape = [J, F]) (hC : C.shape = [K, F])
    (iA : IndepColumns A I F) (iB : IndepColumns B J F) (iC : IndepColumns C K F) (hF : 0 < F) (normalized : Bool) :
    coreConsistency E' X' B A C normalized eps = coreConsistency E X A B C normalized eps := by
  obtain ⟨G, hG, e⟩ := coreConsistency_eq hE he hX hA hB hC iA iB iC hF normalized
  obtain ⟨G2, hG2, e2⟩ := coreConsistency_eq hE' he hX' hB hA hC iB iA iC hF normalized
  have hw : compSize [B, A, C] [J, I, K] = compSize [A, B, C] [I, J, K] := by
    funext r; simp only [compSize, modeProd]; ring
  rw [hw] at hG2
  have key : ∀ (a b c : ℕ → ℕ → ℝ) (H : ℕ → ℕ → ℕ → ℝ),
      tuckerErr X' J I K F b a c (fun p q r => H q p r) = tuckerErr X I J K F a b c H := by
    intro a b c H
    rw [tuckerErr, tuckerErr, Finset.sum_comm]
    refine Finset.sum_congr rfl fun i hi => Finset.sum_congr rfl fun j hj => Finset.sum_congr rfl fun l hl => ?_
    rw [hXX i (Finset.mem_range.1 hi) j (Finset.mem_range.1 hj) l (Finset.mem_range.1 hl), Finset.sum_comm]
    congr 2
    exact Finset.sum_congr rfl fun p _ => Finset.sum_congr rfl fun q _ => Finset.sum_congr rfl fun r _ => by ring
  have heq := hG2.unique (fun p q r => G q p r) (by
    rw [key, show G2 = fun p q r => (fun p q r => G2 q p r) q p r from rfl, key]
    exact hG.best _)
  rw [e, e2]
  have e3 : offDiagonal F G2 = offDiagonal F G := by
    rw [← offDiagonal_congr heq, offDiagonal, offDiagonal, Finset.sum_comm]
    refine Finset.sum_congr rfl fun p _ => Finset.sum_congr rfl fun q _ => Finset.sum_congr rfl fun r _ => ?_
    congr 3
    exact propext ⟨fun h => ⟨h.1.symm, h.1.trans h.2⟩, fun h => ⟨h.1.symm, h.1.trans h.2⟩⟩
  have e4 : coreSq F G2 = coreSq F G := by
    rw [← coreSq_congr heq, coreSq, coreSq, Finset.sum_comm]
  rw [e3, e4]

/-- **C129, modes.** Exchanging the last two modes does not change the core consistency either; every order of the modes can be
reached by the two exchanges. -/
theorem C129_last_modes {E E' : Ext} (hE : E.QROk) (hE' : E'.QROk) {eps : ℝ} (he : 0 < eps) (hX : X.shape = [I, J, K])
    (hX' : X'.shape = [I, K, J]) (hXX : ∀ i < I, ∀ j < J, ∀ l < K, X'.get [i, l, j] = X.get [i, j, l])
    (hA : A.shape = [I, F]) (hB : B.shape = [J, F]) (hC : C.shape = [K, F])
    (iA : IndepColumns A I F) (iB : IndepColumns B J F) (iC : IndepColumns C K F) (hF : 0 < F) (normalized : Bool) :
    coreConsistency E' X' A C B normalized eps = coreConsistency E X A B C normalized eps := by
  obtain ⟨G, hG, e⟩ := coreConsistency_eq hE he hX hA hB hC iA iB iC hF normalized
  obtain ⟨G2, hG2, e2⟩ := coreConsistency_eq hE' he hX' hA hC hB iA iC iB hF normalized
  have hw : compSize [A, C, B] [I, K, J] = compSize [A, B, C] [I, J, K] := by
    funext r; simp only [compSize, modeProd]; ring
  rw [hw] at hG2
  have key : ∀ (a b c : ℕ → ℕ → ℝ) (H : ℕ → ℕ → ℕ → ℝ),
      tuckerErr X' I K J F a c b (fun p q r => H p r q) = tuckerErr X I J K F a b c H := by
    intro a b c H
    rw [tuckerErr, tuckerErr]
    refine Finset.sum_congr rfl fun i hi => ?_
    rw [Finset.sum_comm]
    refine Finset.sum_congr rfl fun j hj => Finset.sum_congr rfl fun l hl => ?_
    rw [hXX i (Finset.mem_range.1 hi) j (Finset.mem_range.1 hj) l (Finset.mem_range.1 hl)]
    congr 2
    refine Finset.sum_congr rfl fun p _ => ?_
    rw [Finset.sum_comm]
    exact Finset.sum_congr rfl fun q _ => Finset.sum_congr rfl fun r _ => by ring
  have heq := hG2.unique (fun p q r => G p r q) (by
    rw [key, show G2 = fun p q r => (fun p q r => G2 p r q) p r q from rfl, key]
    exact hG.best _)
  rw [e, e2]
  have e3 : offDiagonal F G2 = offDiagonal F G := by
    rw [← offDiagonal_congr heq, offDiagonal, offDiagonal]
    refine Finset.sum_congr rfl fun p _ => ?_
    rw [Finset.sum_comm]
    refine Finset.sum_congr rfl fun q _ => Finset.sum_congr rfl fun r _ => ?_
    congr 3
    exact propext ⟨fun h => ⟨h.1.trans h.2, h.2.symm⟩, fun h => ⟨h.1.trans h.2, h.2.symm⟩⟩
  have e4 : coreSq F G2 = coreSq F G := by
    rw [← coreSq_congr heq, coreSq, coreSq]
    exact Finset.sum_congr rfl fun p _ => Finset.sum_comm
  rw [e3, e4]

/-! ### scale of the columns -/

/-- **C129, scale: what holds.** If the columns of the components are multiplied by positive numbers with product one, the entries
of the best core are divided by numbers which are close to one. The core consistency is that of the changed core. Missing:
equality (`C129_scale_fails`). -/
theorem C129_scale_partial {E : Ext} (hE : E.QROk) {eps : ℝ} (he : 0 < eps) (hX : X.shape = [I, J, K])
    (hA : A.shape = [I, F]) (hB : B.shape = [J, F]) (hC : C.shape = [K, F])
    (iA : IndepColumns A I F) (iB : IndepColumns B J F) (iC : IndepColumns C K F) (hF : 0 < F)
    (p1 : ∀ r < F, 0 < d1 r) (p2 : ∀ r < F, 0 < d2 r) (p3 : ∀ r < F, 0 < d3 r) (hd : ∀ r < F, d1 r * d2 r * d3 r = 1)
    (gA : A'.shape = [I, F] ∧ ∀ i < I, ∀ r < F, A'.get [i, r] = d1 r * A.get [i, r])
    (gB : B'.shape = [J, F] ∧ ∀ i < J, ∀ r < F, B'.get [i, r] = d2 r * B.get [i, r])
    (gC : C'.shape = [K, F] ∧ ∀ i < K, ∀ r < F, C'.get [i, r] = d3 r * C.get [i, r])
    {δ : ℝ} (hδ : 0 < δ) (l1 : ∀ r < F, δ ≤ colLen A I r ∧ δ ≤ colLen A' I r) (l2 : ∀ r < F, δ ≤ colLen B J r ∧ δ ≤ colLen B' J r)
    (l3 : ∀ r < F, δ ≤ colLen C K r ∧ δ ≤ colLen C' K r) :
    ∃ (G : ℕ → ℕ → ℕ → ℝ) (k1 k2 k3 : ℕ → ℝ),
      coreConsistency E X A B C false eps = .ok (.fin (100 * (1 - offDiagonal F G / F))) ∧
      coreConsistency E X A' B' C' false eps
        = .ok (.fin (100 * (1 - offDiagonal F (fun p q r => G p q r / (k1 p * k2 q * k3 r)) / F))) ∧
      ∀ r < F, |k1 r - 1| ≤ eps / δ ∧ |k2 r - 1| ≤ eps / δ ∧ |k3 r - 1| ≤ eps / δ := by
  have hF' : (F : ℝ) ≠ 0 := by exact_mod_cast hF.ne'
  have hsh : ∀ v : ℝ, (FV.div v F).oneSub.times100 = .fin (100 * (1 - v / F)) := fun v => by
    rw [FV.div, if_pos hF']
    rfl
  obtain ⟨G, hG, e⟩ := coreConsistency_eq hE he hX hA hB hC iA iB iC hF false
  have mA : ModeMoved 1 1 d1 I F A' A := ⟨gA.1, hA, fun _ => Iff.rfl, gA.2⟩
  have mB : ModeMoved 1 1 d2 J F B' B := ⟨gB.1, hB, fun _ => Iff.rfl, gB.2⟩
  have mC : ModeMoved 1 1 d3 K F C' C := ⟨gC.1, hC, fun _ => Iff.rfl, gC.2⟩
  have e' := core_moved (X' := X) hE he hX hX (fun _ => Iff.rfl) mA mB mC (fun _ _ _ _ _ _ => rfl)
    (fun r hr => by rw [hd r hr, abs_one]) iA iB iC hF false hG
  have hclose : ∀ {ρ : Equiv.Perm ℕ} {d : ℕ → ℝ} {M M' : NDArray ℝ} {m r : ℕ}, r < F → ModeMoved ρ 1 d m F M' M → 0 < d r →
      δ ≤ colLen M m r → δ ≤ colLen M' m r → |stretch eps 1 d M m r - 1| ≤ eps / δ := by
    intro ρ d M M' m r hr hm hd h1 h2
    rw [hm.colLen hr, abs_of_pos hd] at h2
    rw [stretch, abs_of_pos hd]
    simp only [Equiv.Perm.coe_one, id] at h2 ⊢
    generalize colLen M m r = L at h1 h2
    have hL : 0 < L := hδ.trans_le h1
    have hdL : 0 < d r * L := mul_pos hd hL
    have hpos : 0 < d r * L + eps := by positivity
    have : d r * (L + eps) / (d r * L + eps) - 1 = (d r * eps - eps) / (d r * L + eps) := by
      field_simp; ring
    rw [this, abs_le]
    constructor
    · rw [neg_le, ← neg_div, div_le_div_iff₀ hpos hδ]
      nlinarith [mul_pos hd he, mul_le_mul_of_nonneg_left h2 he.le, mul_pos he he, mul_pos (mul_pos hd he) hδ]
    · rw [div_le_div_iff₀ hpos hδ]
      nlinarith [mul_pos hd he, mul_le_mul_of_nonneg_left h1 (mul_pos hd he).le, mul_pos he he, mul_pos he hδ]
  refine ⟨G, stretch eps 1 d1 A I, stretch eps 1 d2 B J, stretch eps 1 d3 C K, ?_, ?_, fun r hr =>
    ⟨hclose hr mA (p1 r hr) (l1 r hr).1 (l1 r hr).2, hclose hr mB (p2 r hr) (l2 r hr).1 (l2 r hr).2,
      hclose hr mC (p3 r hr) (l3 r hr).1 (l3 r hr).2⟩⟩
  · rw [e]; simp only [Bool.false_eq_true, if_false]; rw [hsh]
  · rw [e']; simp only [Bool.false_eq_true, if_false]; rw [hsh]; rfl

/-- **C129, refuted for the scale**: the columns are divided by their length plus `1e-15`, so the core consistency changes if
columns are very short. The model `1 ∘ 1 ∘ 1` of the data 1 has a core consistency above 99; with the columns `1e-15`, `1e15` and
1, which describe the same component, it is at most 0. -/
theorem C129_scale_fails {E : Ext} (hE : E.QROk) : ∃ (X A B C A' B' : NDArray ℝ) (v v' : ℝ), X.shape = [1, 1, 1] ∧
    IndepColumns A 1 1 ∧ IndepColumns B 1 1 ∧ IndepColumns C 1 1 ∧ A'.shape = [1, 1] ∧ B'.shape = [1, 1] ∧
    A'.get [0, 0] = 1e-15 * A.get [0, 0] ∧ B'.get [0, 0] = 1e15 * B.get [0, 0] ∧
    coreConsistency E X A B C = .ok (.fin v) ∧ coreConsistency E X A' B' C = .ok (.fin v') ∧ 99 < v ∧ v' ≤ 0 := by
  have ind : ∀ x : ℝ, x ≠ 0 → IndepColumns (ofMat 1 1 fun _ _ => x) 1 1 := by
    intro x hx v h j hj
    have := h 0 one_pos
    rw [Finset.sum_range_one, get_ofMat one_pos one_pos] at this
    obtain rfl : j = 0 := by omega
    exact (mul_eq_zero.1 this).resolve_left hx
  have hl : ∀ x : ℝ, 0 < x → colLen (ofMat 1 1 fun _ _ => x) 1 0 = x := by
    intro x hx
    rw [colLen, Finset.sum_range_one, get_ofMat one_pos one_pos, Real.sqrt_sq hx.le]
  have hcp : ∀ x y : ℝ, x * y = 1 → ∀ i < 1, ∀ j < 1, ∀ l < 1, (ofFn [1, 1, 1] fun _ => (1 : ℝ)).get [i, j, l]
      = cpEntry (fun _ => 1) [ofMat 1 1 fun _ _ => x, ofMat 1 1 fun _ _ => y, ofMat 1 1 fun _ _ => 1] 1 [i, j, l] := by
    intro x y hxy i hi j hj l hl
    obtain rfl : i = 0 := by omega
    obtain rfl : j = 0 := by omega
    obtain rfl : l = 0 := by omega
    rw [get_ofFn (by simp), cpEntry, Finset.sum_range_one]
    simp only [rankOne, get_ofMat one_pos one_pos, mul_one, one_mul]
    exact hxy.symm
  have val : ∀ x y : ℝ, 0 < x → 0 < y → x * y = 1 → coreConsistency E (ofFn [1, 1, 1] fun _ => (1 : ℝ)) (ofMat 1 1 fun _ _ => x)
      (ofMat 1 1 fun _ _ => y) (ofMat 1 1 fun _ _ => 1) = .ok (.fin (100 * (1 -
        (1 / (x / (x + 1e-15) * (y / (y + 1e-15) * (1 / (1 + 1e-15)))) - 1) ^ 2))) := by
    intro x y hx hy hxy
    rw [C63_exact hE (by norm_num) (shape_ofFn _ _) rfl rfl rfl (ind x hx.ne') (ind y hy.ne') (ind 1 one_ne_zero) one_pos (hcp x y hxy)]
    rw [Finset.sum_range_one, guard]
    simp only [modeProd, hl x hx, hl y hy, hl 1 one_pos, mul_one, Nat.cast_one, div_one]
  refine ⟨ofFn [1, 1, 1] fun _ => 1, ofMat 1 1 fun _ _ => 1, ofMat 1 1 fun _ _ => 1, ofMat 1 1 fun _ _ => 1,
    ofMat 1 1 fun _ _ => 1e-15, ofMat 1 1 fun _ _ => 1e15, _, _, shape_ofFn _ _, ind 1 one_ne_zero, ind 1 one_ne_zero,
    ind 1 one_ne_zero, rfl, rfl, ?_, ?_, val 1 1 one_pos one_pos (by norm_num),
    val 1e-15 1e15 (by norm_num) (by norm_num) (by norm_num), by norm_num, by norm_num⟩
  · rw [get_ofMat one_pos one_pos, get_ofMat one_pos one_pos]; norm_num
  · rw [get_ofMat one_pos one_pos, get_ofMat one_pos one_pos]; norm_num

/-! ### the hypotheses are met -/

/-- An `m × 2` matrix with ones on the diagonal and twos elsewhere. -/
def oneTwo (m : ℕ) : NDArray ℝ := ofMat m 2 fun i j => if i = j then (1 : ℝ) else 2

theorem oneTwo_indep {m : ℕ} (hm : 2 ≤ m) : IndepColumns (oneTwo m) m 2 := by
  intro v h j hj
  have h0 := h 0 (by omega)
  have h1 := h 1 (by omega)
  rw [oneTwo, Finset.sum_range_succ, Finset.sum_range_one, get_ofMat (by omega) (by norm_num),
    get_ofMat (by omega) (by norm_num)] at h0 h1
  norm_num at h0 h1
  interval_cases j <;> linarith

theorem swap_lt_two (r : ℕ) : Equiv.swap 0 1 r < 2 ↔ r < 2 := by
  match r with
  | 0 => simp
  | 1 => simp
  | r + 2 => rw [Equiv.swap_apply_of_ne_of_ne (by omega) (by omega)]

/-- The hypotheses of `C129_components`, for arbitrary data: components exchanged, two columns of each component negated, the first
two rows of the last mode exchanged. -/
example (x : ℕ → ℕ → ℕ → ℝ) {E E' : Ext} (hE : E.QROk) (hE' : E'.QROk) (b : Bool) :
    coreConsistency E' (ofFn [2, 2, 3] fun idx => x (idx.getD 0 0) (idx.getD 1 0) (Equiv.swap 0 1 (idx.getD 2 0)))
      (ofMat 2 2 fun i r => -(oneTwo 2).get [i, Equiv.swap 0 1 r]) (ofMat 2 2 fun i r => -(oneTwo 2).get [i, Equiv.swap 0 1 r])
      (ofMat 3 2 fun i r => (oneTwo 3).get [Equiv.swap 0 1 i, Equiv.swap 0 1 r]) b
    = coreConsistency E (ofFn [2, 2, 3] fun idx => x (idx.getD 0 0) (idx.getD 1 0) (idx.getD 2 0))
      (oneTwo 2) (oneTwo 2) (oneTwo 3) b := by
  have h3 : ∀ i, Equiv.swap 0 1 i < 3 ↔ i < 3 := by
    intro i
    match i with
    | 0 => simp
    | 1 => simp
    | i + 2 => rw [Equiv.swap_apply_of_ne_of_ne (by omega) (by omega)]
  have m : ModeMoved 1 (Equiv.swap 0 1) (fun _ => -1) 2 2 (ofMat 2 2 fun i r => -(oneTwo 2).get [i, Equiv.swap 0 1 r]) (oneTwo 2) :=
    ⟨rfl, rfl, fun _ => Iff.rfl, fun i hi r hr => by rw [get_ofMat hi hr, neg_one_mul]; rfl⟩
  refine C129_components (ρ1 := 1) (ρ2 := 1) (ρ3 := Equiv.swap 0 1) (π := Equiv.swap 0 1) (d1 := fun _ => -1) (d2 := fun _ => -1)
    (d3 := fun _ => 1) hE hE' (by norm_num) (shape_ofFn _ _) (shape_ofFn _ _) swap_lt_two m m
    ⟨rfl, rfl, h3, fun i hi r hr => by rw [get_ofMat hi hr, one_mul]⟩ (fun i hi j hj l hl => ?_) (by simp) (by simp) (by simp)
    (by simp) (oneTwo_indep (by norm_num)) (oneTwo_indep (by norm_num)) (oneTwo_indep (by norm_num)) (by norm_num) b
  rw [get_ofFn (by simp [hi, hj, hl]), get_ofFn (by simpa [hi, hj] using (h3 l).2 hl)]
  rfl

/-- The hypotheses of `C129_first_modes` and `C129_last_modes`, for arbitrary data. -/
example (x : ℕ → ℕ → ℕ → ℝ) {E : Ext} (hE : E.QROk) :
    coreConsistency E (ofFn [2, 3, 4] fun idx => x (idx.getD 1 0) (idx.getD 0 0) (idx.getD 2 0)) (oneTwo 2) (oneTwo 3) (oneTwo 4)
      = coreConsistency E (ofFn [3, 2, 4] fun idx => x (idx.getD 0 0) (idx.getD 1 0) (idx.getD 2 0)) (oneTwo 3) (oneTwo 2) (oneTwo 4) ∧
    coreConsistency E (ofFn [3, 4, 2] fun idx => x (idx.getD 0 0) (idx.getD 2 0) (idx.getD 1 0)) (oneTwo 3) (oneTwo 4) (oneTwo 2)
      = coreConsistency E (ofFn [3, 2, 4] fun idx => x (idx.getD 0 0) (idx.getD 1 0) (idx.getD 2 0)) (oneTwo 3) (oneTwo 2)
        (oneTwo 4) := by
  constructor
  · refine C129_first_modes hE hE (by norm_num) (shape_ofFn _ _) (shape_ofFn _ _) (fun i hi j hj l hl => ?_) rfl rfl rfl
      (oneTwo_indep (by norm_num)) (oneTwo_indep (by norm_num)) (oneTwo_indep (by norm_num)) (by norm_num) false
    rw [get_ofFn (by simp [hi, hj, hl]), get_ofFn (by simp [hi, hj, hl])]
    rfl
  · refine C129_last_modes hE hE (by norm_num) (shape_ofFn _ _) (shape_ofFn _ _) (fun i hi j hj l hl => ?_) rfl rfl rfl
      (oneTwo_indep (by norm_num)) (oneTwo_indep (by norm_num)) (oneTwo_indep (by norm_num)) (by norm_num) false
    rw [get_ofFn (by simp [hi, hj, hl]), get_ofFn (by simp [hi, hj, hl])]
    rfl

/-- The hypotheses of `C129_scale_partial`, for arbitrary data: columns of length at least 1/2, the scale of the first two modes
changed by the factor 2. -/
example (x : List ℕ → ℝ) {E : Ext} (hE : E.QROk) : ∃ v v',
    coreConsistency E (ofFn [2, 2, 2] x) (oneTwo 2) (oneTwo 2) (oneTwo 2) = .ok (.fin v) ∧
    coreConsistency E (ofFn [2, 2, 2] x) (ofMat 2 2 fun i r => 2 * (oneTwo 2).get [i, r])
      (ofMat 2 2 fun i r => 1 / 2 * (oneTwo 2).get [i, r]) (oneTwo 2) = .ok (.fin v') := by
  have hl : ∀ r < 2, √5 = colLen (oneTwo 2) 2 r := by
    intro r hr
    rw [colLen, Finset.sum_range_succ, Finset.sum_range_one, oneTwo, get_ofMat (by norm_num) hr, get_ofMat (by norm_num) hr]
    interval_cases r <;> norm_num
  have h5 : (1 : ℝ) ≤ √5 := Real.one_le_sqrt.2 (by norm_num)
  have hl' : ∀ k : ℝ, 0 ≤ k → ∀ r < 2, k * √5 = colLen (ofMat 2 2 fun i r => k * (oneTwo 2).get [i, r]) 2 r := by
    intro k hk r hr
    have m : ModeMoved 1 1 (fun _ => k) 2 2 (ofMat 2 2 fun i r => k * (oneTwo 2).get [i, r]) (oneTwo 2) :=
      ⟨rfl, rfl, fun _ => Iff.rfl, fun i hi r hr => by rw [get_ofMat hi hr]; rfl⟩
    rw [m.colLen hr, abs_of_nonneg hk, hl r hr]
    rfl
  obtain ⟨G, k1, k2, k3, h1, h2, -⟩ := C129_scale_partial (δ := 1 / 2) (d1 := fun _ => 2) (d2 := fun _ => 1 / 2) (d3 := fun _ => 1)
    (A' := ofMat 2 2 fun i r => 2 * (oneTwo 2).get [i, r]) (B' := ofMat 2 2 fun i r => 1 / 2 * (oneTwo 2).get [i, r])
    (C' := oneTwo 2) (eps := 1e-15) hE (by norm_num)
    (shape_ofFn [2, 2, 2] x) rfl rfl rfl (oneTwo_indep le_rfl) (oneTwo_indep le_rfl) (oneTwo_indep le_rfl) (by norm_num)
    (by simp) (by simp) (by simp) (by simp) ⟨rfl, fun i hi r hr => get_ofMat hi hr⟩ ⟨rfl, fun i hi r hr => get_ofMat hi hr⟩
    ⟨rfl, fun i hi r hr => (one_mul _).symm⟩ (by norm_num)
    (fun r hr => by rw [← hl r hr, ← hl' 2 (by norm_num) r hr]; constructor <;> linarith)
    (fun r hr => by rw [← hl r hr, ← hl' (1 / 2) (by norm_num) r hr]; constructor <;> linarith)
    (fun r hr => by rw [← hl r hr]; constructor <;> linarith)
  exact ⟨_, _, h1, h2⟩

end
end TK
