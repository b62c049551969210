import Verif.Model.CMTF
import Verif.Spec.CMTF
import Verif.Props.CP
import Verif.Props.Base

/-! # Lemmas about coupled factorisations -/

namespace TK
open NDArray

noncomputable section

/-! ### the dictionary of the coupling modes -/

/-- The dictionary after the first `n` coupling modes: one entry for every mode, with the numbers of its matrices in order. -/
structure MapOk (modes : List Int) (n : ℕ) (D : List (Int × List ℕ)) : Prop where
  nodup : (D.map Prod.fst).Nodup
  entry : ∀ m l, (m, l) ∈ D → l ≠ [] ∧ l = (List.range n).filter fun i => modes[i]? = some m
  mem : ∀ i < n, ∀ m, modes[i]? = some m → ∃ l, (m, l) ∈ D

theorem keys_addMode (cm : Int) (i : ℕ) (D : List (Int × List ℕ)) :
    (CMTF.addMode cm i D).map Prod.fst = if cm ∈ D.map Prod.fst then D.map Prod.fst else D.map Prod.fst ++ [cm] := by
  induction D with
  | nil => simp [CMTF.addMode]
  | cons p D ih =>
    obtain ⟨m, l⟩ := p
    rw [CMTF.addMode]
    by_cases h : m = cm
    · simp [h]
    · simp only [h, if_false, List.map_cons, ih, List.mem_cons, Ne.symm h, false_or]
      split <;> simp

theorem mem_addMode {cm : Int} {i : ℕ} {D : List (Int × List ℕ)} (hD : (D.map Prod.fst).Nodup) {m : Int} {l : List ℕ}
    (h : (m, l) ∈ CMTF.addMode cm i D) : (m ≠ cm ∧ (m, l) ∈ D) ∨
      (m = cm ∧ ((∃ l0, (cm, l0) ∈ D ∧ l = l0 ++ [i]) ∨ (cm ∉ D.map Prod.fst ∧ l = [i]))) := by
  induction D with
  | nil =>
    obtain ⟨rfl, rfl⟩ : m = cm ∧ l = [i] := by simpa [CMTF.addMode] using h
    exact Or.inr ⟨rfl, Or.inr ⟨by simp, rfl⟩⟩
  | cons p D ih =>
    obtain ⟨m', l'⟩ := p
    rw [CMTF.addMode] at h
    have hn : m' ∉ D.map Prod.fst ∧ (D.map Prod.fst).Nodup := by simpa using hD
    by_cases hm : m' = cm
    · rw [if_pos hm, List.mem_cons] at h
      rcases h with h | h
      · obtain ⟨rfl, rfl⟩ := Prod.mk.inj h
        exact Or.inr ⟨hm, Or.inl ⟨l', by simp [hm], rfl⟩⟩
      · refine Or.inl ⟨fun e => hn.1 ?_, by simp [h]⟩
        rw [hm, ← e]
        exact List.mem_map_of_mem (f := Prod.fst) h
    · rw [if_neg hm, List.mem_cons] at h
      rcases h with h | h
      · obtain ⟨rfl, rfl⟩ := Prod.mk.inj h
        exact Or.inl ⟨hm, by simp⟩
      · rcases ih hn.2 h with ⟨a, b⟩ | ⟨a, ⟨l0, b, c⟩ | ⟨b, c⟩⟩
        · exact Or.inl ⟨a, by simp [b]⟩
        · exact Or.inr ⟨a, Or.inl ⟨l0, by simp [b], c⟩⟩
        · refine Or.inr ⟨a, Or.inr ⟨?_, c⟩⟩
          rw [List.map_cons, List.mem_cons]
          rintro (e | e)
          · exact hm e.symm
          · exact b e

theorem MapOk.step {modes : List Int} {n : ℕ} {D : List (Int × List ℕ)} (h : MapOk modes n D) {cm : Int}
    (hcm : modes[n]? = some cm) : MapOk modes (n + 1) (CMTF.addMode cm n D) := by
  have hfil : ∀ m, (List.range (n + 1)).filter (fun i => modes[i]? = some m)
      = ((List.range n).filter fun i => modes[i]? = some m) ++ if m = cm then [n] else [] := by
    intro m
    rw [List.range_succ, List.filter_append]
    congr 1
    by_cases e : m = cm
    · simp [e, hcm]
    · simp [hcm, e, Ne.symm e]
  refine ⟨?_, fun m l hl => ?_, fun i hi m hm => ?_⟩
  · rw [keys_addMode]
    split
    · exact h.nodup
    · rename_i hc
      rw [List.nodup_append]
      exact ⟨h.nodup, by simp, fun a ha b hb => by rintro rfl; simp at hb; exact hc (hb ▸ ha)⟩
  · rw [hfil]
    rcases mem_addMode h.nodup hl with ⟨a, b⟩ | ⟨a, ⟨l0, b, c⟩ | ⟨b, c⟩⟩
    · rw [if_neg a, List.append_nil]; exact h.entry m l b
    · subst a; subst c
      exact ⟨by simp, by rw [if_pos rfl, ← (h.entry _ _ b).2]⟩
    · subst a; subst c
      refine ⟨by simp, ?_⟩
      have : (List.range n).filter (fun i => modes[i]? = some m) = [] := by
        rw [List.filter_eq_nil_iff]
        intro i hi hc
        obtain ⟨l, hl⟩ := h.mem i (by simpa using hi) m (by simpa using hc)
        exact b (List.mem_map_of_mem (f := Prod.fst) hl)
      rw [this, if_pos rfl]; rfl
  · have hk : m ∈ (CMTF.addMode cm n D).map Prod.fst := by
      rw [keys_addMode]
      rcases Nat.lt_succ_iff_lt_or_eq.1 hi with hi | rfl
      · obtain ⟨l, hl⟩ := h.mem i hi m hm
        have := List.mem_map_of_mem (f := Prod.fst) hl
        split
        · exact this
        · exact List.mem_append_left _ this
      · obtain rfl : cm = m := by rw [hcm] at hm; simpa using hm
        split
        · assumption
        · simp
    obtain ⟨⟨m', l⟩, hl, rfl⟩ := List.mem_map.1 hk
    exact ⟨l, hl⟩

theorem mapFrom_ok {modes : List Int} : ∀ (rest : List Int) (n : ℕ) (D : List (Int × List ℕ)), MapOk modes n D →
    modes.drop n = rest → MapOk modes modes.length (CMTF.mapFrom n rest D) := by
  intro rest
  induction rest with
  | nil =>
    intro n D h hr
    have hn : modes.length ≤ n := by simpa using hr
    refine ⟨h.nodup, fun m l hl => ?_, fun i hi => h.mem i (by omega)⟩
    obtain ⟨a, b⟩ := h.entry m l hl
    refine ⟨a, b.trans ?_⟩
    obtain ⟨k, rfl⟩ := Nat.exists_eq_add_of_le hn
    rw [List.range_add, List.filter_append]
    have : ((List.range k).map (modes.length + ·)).filter (fun i => modes[i]? = some m) = [] := by
      rw [List.filter_eq_nil_iff]
      intro i hi
      obtain ⟨j, -, rfl⟩ := List.mem_map.1 hi
      simp
    rw [this, List.append_nil]
  | cons cm rest ih =>
    intro n D h hr
    have hn : modes[n]? = some cm := by
      have : (modes.drop n)[0]? = some cm := by rw [hr]; rfl
      simpa using this
    refine ih (n + 1) _ (h.step hn) ?_
    rw [← List.drop_drop, hr]; rfl

/-- The dictionary made by `set_coupled_matrices`. -/
theorem mapOk (modes : List Int) : MapOk modes modes.length (CMTF.mapFrom 0 modes []) :=
  mapFrom_ok modes 0 [] ⟨by simp, by simp, by simp⟩ rfl

theorem lookup_mem {m : Int} {D : List (Int × List ℕ)} {l : List ℕ} (h : CMTF.lookup m D = some l) : (m, l) ∈ D := by
  induction D with
  | nil => simp [CMTF.lookup] at h
  | cons p D ih =>
    obtain ⟨m', l'⟩ := p
    rw [CMTF.lookup] at h
    by_cases e : m' = m
    · rw [if_pos e] at h
      obtain rfl : l' = l := by simpa using h
      simp [e]
    · rw [if_neg e] at h
      exact List.mem_cons_of_mem _ (ih h)

theorem lookup_none {m : Int} {D : List (Int × List ℕ)} (h : CMTF.lookup m D = none) : ∀ l, (m, l) ∉ D := by
  induction D with
  | nil => simp
  | cons p D ih =>
    obtain ⟨m', l'⟩ := p
    rw [CMTF.lookup] at h
    by_cases e : m' = m
    · rw [if_pos e] at h; simp at h
    · rw [if_neg e] at h
      intro l hl
      rcases List.mem_cons.1 hl with hl | hl
      · exact e (Prod.mk.inj hl).1.symm
      · exact ih h l hl

/-- An entry of the dictionary starts with the first matrix of its mode. -/
theorem MapOk.head {modes : List Int} {D : List (Int × List ℕ)} (h : MapOk modes modes.length D) {m : Int} {l : List ℕ}
    (hl : (m, l) ∈ D) : ∃ i t, l = i :: t ∧ modes[i]? = some m ∧ (∀ j < i, modes[j]? ≠ some m) ∧
      (∀ k ∈ l, k < modes.length ∧ modes[k]? = some m) := by
  obtain ⟨hne, e⟩ := h.entry m l hl
  have hall : ∀ k ∈ l, k < modes.length ∧ modes[k]? = some m := by
    intro k hk
    rw [e, List.mem_filter] at hk
    simpa using hk
  obtain ⟨i, t, rfl⟩ := List.exists_cons_of_ne_nil hne
  refine ⟨i, t, rfl, (hall i (by simp)).2, fun j hj hm => ?_, hall⟩
  have hjl : j < modes.length := (List.getElem?_eq_some_iff.1 hm).1
  have hj' : j ∈ i :: t := by
    rw [e, List.mem_filter]; simpa [hjl] using hm
  have hs : (i :: t).Pairwise (· < ·) := by
    rw [e]; exact List.Pairwise.filter _ List.pairwise_lt_range
  rcases List.mem_cons.1 hj' with rfl | hj'
  · omega
  · have := (List.pairwise_cons.1 hs).1 j hj'
    omega

/-! ### sizes -/

/-- The sizes of a coupled problem: `ms` are the positions of the coupling modes, matrix number `i` has `qs[i]` columns. -/
structure CMTFState.Sized (s : CMTFState) (R : ℕ) (ms qs : List ℕ) : Prop where
  cp : s.cp.Sized R
  modes : List.Forall₂ (fun n m => IsMode n s.cp.X.shape.length m) s.modes ms
  map : s.map = CMTF.mapFrom 0 s.modes []
  lenY : s.Ys.length = ms.length
  lenV : s.V.length = ms.length
  lenW : s.coupledWeights.length = ms.length
  shapeY : ∀ i < ms.length, (s.Ys.getD i noArr).shape = [s.cp.X.shape.getD (ms.getD i 0) 0, qs.getD i 0]
  shapeV : ∀ i < ms.length, (s.V.getD i noArr).shape = [qs.getD i 0, R]

/-- The true loss: the error of the tensor with its weights plus the errors of all coupled matrices. -/
def CMTFState.trueLoss (s : CMTFState) (R : ℕ) (ms : List ℕ) : ℝ :=
  s.cp.trueSSE R + coupledErr s.cp.dec.factorMatrices s.Ys s.V ms R

/-- The loss that the updates minimise: without the weights, with only the first matrix of every mode. -/
def CMTFState.fitLoss (s : CMTFState) (R : ℕ) (ms : List ℕ) : ℝ :=
  sqErr s.cp.X (fun _ => 1) s.cp.dec.factorMatrices R + firstErr s.cp.dec.factorMatrices s.Ys s.V ms R

theorem getD_of_lt {β : Type} {l : List β} {i : ℕ} (h : i < l.length) (d : β) : l.getD i d = l[i] := by
  simp [List.getD, h]

theorem CMTFState.Sized.lenM {s : CMTFState} {R : ℕ} {ms qs : List ℕ} (h : s.Sized R ms qs) : s.modes.length = ms.length :=
  h.modes.length_eq

theorem CMTFState.Sized.mode {s : CMTFState} {R : ℕ} {ms qs : List ℕ} (h : s.Sized R ms qs) {i : ℕ} (hi : i < ms.length) :
    IsMode (s.modes[i]'(by rw [h.lenM]; exact hi)) s.cp.X.shape.length (ms.getD i 0) := by
  have := (List.forall₂_iff_get.1 h.modes).2 i (by rw [h.lenM]; exact hi) hi
  rw [getD_of_lt hi]
  exact this

theorem CMTFState.Sized.getFactor {s : CMTFState} {R : ℕ} {ms qs : List ℕ} (h : s.Sized R ms qs) {i : ℕ} (hi : i < ms.length) :
    pyGet s.cp.dec.factorMatrices (s.modes[i]'(by rw [h.lenM]; exact hi))
      = .ok (s.cp.dec.factorMatrices.getD (ms.getD i 0) noArr) := by
  have hl := h.cp.wf.factors.length_eq
  have hm := h.mode hi
  rw [← hl] at hm
  rw [pyGet_ok hm.norm]
  exact congrArg Except.ok (getD_of_lt hm.1 _).symm

theorem CMTFState.Sized.shapeU {s : CMTFState} {R : ℕ} {ms qs : List ℕ} (h : s.Sized R ms qs) {i : ℕ} (hi : i < ms.length) :
    (s.cp.dec.factorMatrices.getD (ms.getD i 0) noArr).shape = [s.cp.X.shape.getD (ms.getD i 0) 0, R] := by
  have hm := (h.mode hi).1
  rw [← h.cp.wf.factors.length_eq] at hm
  rw [getD_of_lt hm]
  exact h.cp.wf.factors.shape_get hm

/-! ### the loss -/

theorem coupledFactors_ok {s : CMTFState} {R : ℕ} {ms qs : List ℕ} (h : s.Sized R ms qs) :
    CMTF.coupledFactors s = .ok (ms.map fun m => s.cp.dec.factorMatrices.getD m noArr) := by
  rw [CMTF.coupledFactors]
  have hl := h.cp.wf.factors.length_eq
  have := h.modes
  clear h
  generalize s.modes = mo at this
  induction this with
  | nil => rfl
  | cons h1 h2 ih =>
    rw [← hl] at h1
    rw [List.mapM_cons, pyGet_ok h1.norm, bind_ok, ih, bind_ok, List.map_cons, getD_of_lt h1.1]
    rfl

/-- `U Vᵀ`. -/
def prodT (U V : NDArray ℝ) (n q R : ℕ) : NDArray ℝ :=
  ofMat n q fun i j => ∑ r ∈ Finset.range R, U.get [i, r] * V.get [j, r]

theorem matmul_T {U V : NDArray ℝ} {n q R : ℕ} (hU : U.shape = [n, R]) (hV : V.shape = [q, R]) :
    matmul U V.T = .ok (prodT U V n q R) := by
  rw [matmul_ok hU (shape_T hV)]
  refine congrArg Except.ok (ofMat_congr fun i hi j hj => Finset.sum_congr rfl fun r hr => ?_)
  rw [get_T hV (by simpa using hr) hj]

theorem frob_matErr {Y U V : NDArray ℝ} {n q R : ℕ} (hY : Y.shape = [n, q]) :
    ∃ D, zipB (· - ·) Y (prodT U V n q R) = .ok D ∧ frobNorm D ^ 2 = matErr Y U V R := by
  obtain ⟨D, e, hD, hDg⟩ := zipB_sub_shape (A := Y) (B := prodT U V n q R) (· - ·) (by rw [hY]; rfl)
  refine ⟨D, e, ?_⟩
  rw [frobNorm_sq, hD, hY]
  simp only [matErr, hY, sumIdx_cons, sumIdx_nil, List.getD_cons_zero, List.getD_cons_succ]
  refine Finset.sum_congr rfl fun i hi => Finset.sum_congr rfl fun j hj => ?_
  have hi : i < n := by simpa using hi
  have hj : j < q := by simpa using hj
  rw [hDg _ (by rw [hY]; exact ⟨hi, hj, trivial⟩), prodT, get_ofMat hi hj]

/-- The loops of the coupled error over the lists. -/
theorem coupledLoop_ok {R : ℕ} {sz : ℕ → ℕ} : ∀ {Us Ys Vs ws : List (NDArray ℝ)} {k : ℕ}, Us.length = k → Ys.length = k →
    Vs.length = k → ws.length = k →
    (∀ i < k, ∃ n, (Us.getD i noArr).shape = [n, R] ∧ (Ys.getD i noArr).shape = [n, sz i] ∧ (Vs.getD i noArr).shape = [sz i, R]) →
    ∃ Zs, CMTF.reconstructLoop Us Vs ws = .ok Zs ∧ ∀ e, CMTF.coupledLoop Ys Zs e
      = .ok (e + ∑ i ∈ Finset.range k, matErr (Ys.getD i noArr) (Us.getD i noArr) (Vs.getD i noArr) R) := by
  intro Us
  induction Us generalizing sz with
  | nil =>
    intro Ys Vs ws k h1 h2 h3 h4 _
    obtain rfl : 0 = k := h1
    obtain rfl := List.length_eq_zero_iff.1 h2
    obtain rfl := List.length_eq_zero_iff.1 h3
    obtain rfl := List.length_eq_zero_iff.1 h4
    exact ⟨[], rfl, fun e => by simp [CMTF.coupledLoop]⟩
  | cons U Us ih =>
    intro Ys Vs ws k h1 h2 h3 h4 hs
    obtain ⟨k, rfl⟩ : ∃ k', k = k' + 1 := ⟨Us.length, by simpa using h1.symm⟩
    obtain ⟨Y, Ys, rfl⟩ := List.exists_cons_of_length_eq_add_one h2
    obtain ⟨V, Vs, rfl⟩ := List.exists_cons_of_length_eq_add_one h3
    obtain ⟨w, ws, rfl⟩ := List.exists_cons_of_length_eq_add_one h4
    obtain ⟨n, a, b, c⟩ := hs 0 (by omega)
    simp only [List.getD_cons_zero] at a b c
    obtain ⟨Zs, e1, e2⟩ := ih (sz := fun i => sz (i + 1)) (by simpa using h1) (by simpa using h2) (by simpa using h3)
      (by simpa using h4) (fun i hi => by simpa using hs (i + 1) (by omega))
    obtain ⟨D, e3, e4⟩ := frob_matErr (Y := Y) (U := U) (V := V) (R := R) b
    refine ⟨prodT U V n (sz 0) R :: Zs, ?_, fun e => ?_⟩
    · rw [CMTF.reconstructLoop, matmul_T a c, bind_ok, e1]; rfl
    · rw [CMTF.coupledLoop, e3, bind_ok, e2, e4, Finset.sum_range_succ']
      simp only [List.getD_cons_zero, List.getD_cons_succ]
      refine congrArg Except.ok ?_
      ring

/-- The reconstructed coupled matrices. -/
theorem reconstructLoop_ok {R : ℕ} {nz sz : ℕ → ℕ} : ∀ {Us Vs ws : List (NDArray ℝ)} {k : ℕ}, Us.length = k → Vs.length = k →
    ws.length = k → (∀ i < k, (Us.getD i noArr).shape = [nz i, R] ∧ (Vs.getD i noArr).shape = [sz i, R]) →
    ∃ Zs, CMTF.reconstructLoop Us Vs ws = .ok Zs ∧ Zs.length = k ∧
      ∀ i < k, Zs.getD i noArr = prodT (Us.getD i noArr) (Vs.getD i noArr) (nz i) (sz i) R := by
  intro Us
  induction Us generalizing nz sz with
  | nil =>
    intro Vs ws k h1 h2 h3 _
    obtain rfl : 0 = k := h1
    exact ⟨[], rfl, rfl, by simp⟩
  | cons U Us ih =>
    intro Vs ws k h1 h2 h3 hs
    obtain ⟨k, rfl⟩ : ∃ k', k = k' + 1 := ⟨Us.length, by simpa using h1.symm⟩
    obtain ⟨V, Vs, rfl⟩ := List.exists_cons_of_length_eq_add_one h2
    obtain ⟨w, ws, rfl⟩ := List.exists_cons_of_length_eq_add_one h3
    obtain ⟨a, b⟩ := hs 0 (by omega)
    simp only [List.getD_cons_zero] at a b
    obtain ⟨Zs, e1, e2, e3⟩ := ih (nz := fun i => nz (i + 1)) (sz := fun i => sz (i + 1)) (by simpa using h1)
      (by simpa using h2) (by simpa using h3) (fun i hi => by simpa using hs (i + 1) (by omega))
    refine ⟨prodT U V (nz 0) (sz 0) R :: Zs, ?_, by simp [e2], fun i hi => ?_⟩
    · rw [CMTF.reconstructLoop, matmul_T a b, bind_ok, e1]; rfl
    · match i with
      | 0 => rfl
      | i + 1 => simpa using e3 i (by omega)

theorem reconstructed_ok {s : CMTFState} {R : ℕ} {ms qs : List ℕ} (h : s.Sized R ms qs) :
    ∃ Zs, CMTF.reconstructed s = .ok Zs ∧ Zs.length = ms.length ∧ ∀ i < ms.length, Zs.getD i noArr
      = prodT (s.cp.dec.factorMatrices.getD (ms.getD i 0) noArr) (s.V.getD i noArr) (s.cp.X.shape.getD (ms.getD i 0) 0)
        (qs.getD i 0) R := by
  rw [CMTF.reconstructed, coupledFactors_ok h, bind_ok]
  have hU : ∀ i < ms.length, (ms.map fun m => s.cp.dec.factorMatrices.getD m noArr).getD i noArr
      = s.cp.dec.factorMatrices.getD (ms.getD i 0) noArr := by
    intro i hi
    rw [getD_of_lt (by simpa using hi), List.getElem_map, getD_of_lt hi]
  obtain ⟨Zs, e1, e2, e3⟩ := reconstructLoop_ok (R := R) (nz := fun i => s.cp.X.shape.getD (ms.getD i 0) 0)
    (sz := fun i => qs.getD i 0) (Us := ms.map fun m => s.cp.dec.factorMatrices.getD m noArr) (Vs := s.V)
    (ws := s.coupledWeights) (k := ms.length) (by simp) h.lenV h.lenW
    (fun i hi => ⟨by rw [hU i hi]; exact h.shapeU hi, h.shapeV i hi⟩)
  exact ⟨Zs, e1, e2, fun i hi => by rw [e3 i hi, hU i hi]⟩

theorem coupledSSE_ok {s : CMTFState} {R : ℕ} {ms qs : List ℕ} (h : s.Sized R ms qs) :
    CMTF.coupledSSE s = .ok (coupledErr s.cp.dec.factorMatrices s.Ys s.V ms R) := by
  rw [CMTF.coupledSSE, CMTF.reconstructed, coupledFactors_ok h, bind_ok]
  have hU : ∀ i < ms.length, (ms.map fun m => s.cp.dec.factorMatrices.getD m noArr).getD i noArr
      = s.cp.dec.factorMatrices.getD (ms.getD i 0) noArr := by
    intro i hi
    rw [getD_of_lt (by simpa using hi), List.getElem_map, getD_of_lt hi]
  obtain ⟨Zs, e1, e2⟩ := coupledLoop_ok (R := R) (sz := fun i => qs.getD i 0)
    (Us := ms.map fun m => s.cp.dec.factorMatrices.getD m noArr) (Ys := s.Ys) (Vs := s.V) (ws := s.coupledWeights)
    (k := ms.length) (by simp) h.lenY h.lenV h.lenW
    (fun i hi => ⟨s.cp.X.shape.getD (ms.getD i 0) 0, by rw [hU i hi]; exact h.shapeU hi, h.shapeY i hi, h.shapeV i hi⟩)
  rw [e1, bind_ok, e2, zero_add]
  refine congrArg Except.ok (Finset.sum_congr rfl fun i hi => ?_)
  rw [hU i (by simpa using hi)]
  rfl

/-- The reported loss is the true one. -/
theorem cmtf_sse_ok {s : CMTFState} {R : ℕ} {ms qs : List ℕ} (h : s.Sized R ms qs) :
    CMTF.sse s = .ok (s.trueLoss R ms) := by
  rw [CMTF.sse, constructTensor_eq h.cp.wf h.cp.order, bind_ok]
  obtain ⟨D, e, hD, hDg⟩ := zipB_sub_shape (A := s.cp.X)
    (B := ofFn s.cp.X.shape (cpEntry (fun r => s.cp.dec.weights.get [r]) s.cp.dec.factorMatrices R)) (· - ·) rfl
  rw [e, bind_ok, coupledSSE_ok h, bind_ok]
  refine congrArg Except.ok ?_
  rw [frobNorm_sq, hD, CMTFState.trueLoss, CPState.trueSSE, sqErr]
  congr 1
  exact sumIdx_congr fun idx hidx => by rw [hDg idx hidx, get_ofFn hidx]

end
end TK
