import Verif.Props.HeapFit

/-!
# C90: decompositions that use one array for several modes
-/

namespace TK
open NDArray Fit
open EStateM (Result)
open CPRef

noncomputable section

/-! ### `normalize_components` -/

/-- The loop over different arrays does what the loop over values does. -/
theorem normalizeLoop_spec {uw : Bool} {eps : ℝ} {w : Addr} : ∀ {as : List Addr} {h : Heap} {fs : List (NDArray ℝ)}
    {v : NDArray ℝ}, (w :: as).Nodup →
    KruskalTensor.normalizeLoop uw eps (as.map h.mem) (h.mem w) = .ok (fs, v) →
    ∃ h', Mem.normalizeLoop uw eps w as h = .ok h' ∧ as.map h'.mem = fs ∧ h'.mem w = v ∧
      (∀ b, b ∉ w :: as → h'.mem b = h.mem b) ∧ h'.next = h.next
  | [], h, fs, v, _, e => by
    rw [List.map_nil, KruskalTensor.normalizeLoop] at e
    injection e with e
    injection e with e1 e2
    exact ⟨h, rfl, e1, e2, fun _ _ => rfl, rfl⟩
  | a :: as, h, fs, v, hn, e => by
    rw [List.map_cons, KruskalTensor.normalizeLoop, bind_eq_ok] at e
    obtain ⟨⟨F, u⟩, e1, e2⟩ := e
    simp only [bind_eq_ok, pure_eq_ok] at e2
    obtain ⟨⟨gs, v'⟩, e2, e3⟩ := e2
    injection e3 with e3 e4
    subst e3 e4
    rw [KruskalTensor.normalizeStep, bind_eq_ok] at e1
    obtain ⟨F', f1, f2⟩ := e1
    obtain ⟨u', g2, rfl, rfl⟩ : ∃ u', (if uw then zipB (· * ·) (h.mem w) (colNorms (h.mem a)) else pure (h.mem w)) =
        .ok u' ∧ F' = F ∧ u' = u := by
      dsimp only at f2
      cases uw
      · simp only [Bool.false_eq_true, if_false, pure_bind] at f2 ⊢
        have f3 := pure_eq_ok.1 f2
        injection f3 with f3 f4
        exact ⟨_, rfl, f3, f4⟩
      · simp only [if_true, bind_eq_ok] at f2 ⊢
        obtain ⟨u', f2, f3⟩ := f2
        have f3 := pure_eq_ok.1 f3
        injection f3 with f3 f4
        exact ⟨_, f2, f3, f4⟩
    clear f2
    rw [List.nodup_cons, List.mem_cons, not_or, List.nodup_cons] at hn
    obtain ⟨⟨hwa, hw⟩, ha, hn⟩ := hn
    -- the heap after the first pass
    have hstep : ∃ h1 : Heap, ((if uw then do
          let v ← zipB (· * ·) ((h.write a F').mem w) (colNorms (h.mem a))
          pure ((h.write a F').write w v)
        else pure (h.write a F') : Py Heap)) = .ok h1 ∧ h1.mem w = u' ∧ h1.mem a = F' ∧
        (∀ b, b ≠ w → b ≠ a → h1.mem b = h.mem b) ∧ h1.next = h.next := by
      have hmw : (h.write a F').mem w = h.mem w := Heap.mem_write_ne _ _ hwa
      cases uw with
      | true =>
        simp only [if_true] at g2 ⊢
        refine ⟨(h.write a F').write w u', ?_, by simp, ?_, ?_, rfl⟩
        · rw [hmw, g2, bind_ok]; rfl
        · rw [Heap.mem_write_ne _ _ (Ne.symm hwa)]; simp
        · intro b h1 h2
          rw [Heap.mem_write_ne _ _ h1, Heap.mem_write_ne _ _ h2]
      | false =>
        have g2 := pure_eq_ok.1 g2
        exact ⟨h.write a F', rfl, by rw [hmw, g2], by simp, fun b _ h2 => Heap.mem_write_ne _ _ h2, rfl⟩
    obtain ⟨h1, g1, g6, g3, g4, g5⟩ := hstep
    have hmap : as.map h1.mem = as.map h.mem :=
      List.map_congr_left fun b hb => g4 b (fun e => hw (e ▸ hb)) (fun e => ha (e ▸ hb))
    obtain ⟨h2, k1, k2, k3, k4, k5⟩ := normalizeLoop_spec (h := h1) (fs := gs) (v := v')
      (List.nodup_cons.2 ⟨hw, hn⟩) (by rw [hmap, g6]; exact e2)
    refine ⟨h2, ?_, ?_, k3, fun b hb => ?_, k5.trans g5⟩
    · rw [Mem.normalizeLoop, f1, bind_ok]
      dsimp only
      rw [g1, bind_ok]
      exact k1
    · rw [List.map_cons, k2, k4 a, g3]
      rw [List.mem_cons, not_or]
      exact ⟨Ne.symm hwa, ha⟩
    · rw [List.mem_cons, List.mem_cons, not_or, not_or] at hb
      rw [k4 b (by rw [List.mem_cons, not_or]; exact ⟨hb.1, hb.2.2⟩), g4 b hb.1 hb.2.1]

/-- C90, the part that holds: `normalize_components` of a decomposition that uses every array once does to the object in
memory what it does to the values, and changes no decomposition that has no array in common with it. -/
theorem C90_normalize_partial {M : Mem} {r : Addr} (hr : Usual M r) {uw : Bool} {eps : ℝ} {t : KruskalTensor}
    (e : (M.kt r).normalizeComponents uw eps = .ok t) :
    ∃ M', M.normalizeComponents r uw eps = .ok M' ∧ M'.kt r = t ∧
      ∀ r', Apart M r' r → M'.kt r' = M.kt r' := by
  rw [KruskalTensor.normalizeComponents, bind_eq_ok] at e
  obtain ⟨⟨fs, v⟩, e1, e2⟩ := e
  obtain ⟨h', k1, k2, k3, k4, -⟩ := normalizeLoop_spec (as := (M.objs r).mats) (h := M.heap) hr.nodup e1
  refine ⟨{ M with heap := h' }, ?_, ?_, fun r' hap => ?_⟩
  · rw [Mem.normalizeComponents, k1, bind_ok]; rfl
  · rw [← pure_eq_ok.1 e2, Mem.kt]
    simp only [k2, k3]
    rfl
  · have h1 : h'.mem (M.objs r').weights = M.heap.mem (M.objs r').weights := k4 _ (hap _ (by simp))
    have h2 : (M.objs r').mats.map h'.mem = (M.objs r').mats.map M.heap.mem :=
      List.map_congr_left fun a ha => k4 a (hap a (by simp [ha]))
    unfold Mem.kt
    simp only [h1, h2]

/-- A `1 × 1` matrix. -/
def sc11 (x : ℝ) : NDArray ℝ := ofMat 1 1 fun _ _ => x

@[simp] theorem get_sc11 (x : ℝ) : (sc11 x).get [0, 0] = x := get_ofMat (by omega) (by omega)
@[simp] theorem shape_sc11 (x : ℝ) : (sc11 x).shape = [1, 1] := rfl
theorem eq_sc11 {A : NDArray ℝ} (h : A.shape = [1, 1]) : A = sc11 (A.get [0, 0]) := by
  refine (eq_ofMat h).trans (ofMat_congr fun i hi j hj => ?_)
  obtain rfl : i = 0 := by omega
  obtain rfl : j = 0 := by omega
  rfl

/-- A memory in which the object 0 is `KruskalTensor([A, A])` for the `1 × 1` matrix `A = [[x]]`. -/
def sharedMem (x : ℝ) : Mem where
  heap := ⟨fun a => if a = 0 then sc11 x else full [1] 1, 2⟩
  objs := fun _ => ⟨1, [0, 0], 1⟩
  nextObj := 1

/-- What the caller sees in `sharedMem x`. -/
theorem sharedMem_kt (x : ℝ) : (sharedMem x).kt 0 = ⟨1, [sc11 x, sc11 x], full [1] 1⟩ := rfl

theorem colNorms_sc11 {x : ℝ} (hx : 0 ≤ x) : colNorms (sc11 x) = full [1] x := by
  refine ext_get rfl fun idx hidx => ?_
  have hv : Valid [1] idx := hidx
  obtain ⟨r, rfl, hr⟩ : ∃ r, idx = [r] ∧ r < 1 := by
    match idx, hv with
    | [r], hv => exact ⟨r, rfl, by simpa using hv⟩
  obtain rfl : r = 0 := by omega
  rw [colNorms, shape_sc11, get_full hv]
  refine (get_ofFn (s := [1]) hv).trans ?_
  simp [colNorm, Real.sqrt_sq hx]

theorem cpEntry_sc11 (a b : ℝ) (W : ℕ → ℝ) : cpEntry W [sc11 a, sc11 b] 1 [0, 0] = W 0 * (a * b) := by
  simp [cpEntry, rankOne]

/-- Writing into the shared array. -/
theorem sharedMem_write (x y : ℝ) : { sharedMem x with heap := (sharedMem x).heap.write 0 (sc11 y) } = sharedMem y := by
  have h : Function.update (sharedMem x).heap.mem 0 (sc11 y) = (sharedMem y).heap.mem := by
    funext a
    by_cases h : a = 0 <;> simp [h, sharedMem]
  exact congrArg (fun f => (⟨⟨f, 2⟩, (sharedMem x).objs, 1⟩ : Mem)) h

theorem sharedMem_reset (x : ℝ) : (sharedMem x).resetWeights 0 = sharedMem x := by
  have h1 : ((full [1] (1 : ℝ)).map (· * 0)).map (· + 1) = full [1] 1 := by
    refine ext_get rfl fun idx hidx => ?_
    have hv : Valid [1] idx := hidx
    rw [get_map _ _ (by exact hv), get_map _ _ (by exact hv), get_full hv]
    ring
  have h : Function.update (sharedMem x).heap.mem 1 (((full [1] (1 : ℝ)).map (· * 0)).map (· + 1)) =
      (sharedMem x).heap.mem := by
    rw [h1]
    funext a
    by_cases h : a = 1 <;> simp [h, sharedMem]
  exact congrArg (fun f => (⟨⟨f, 2⟩, (sharedMem x).objs, 1⟩ : Mem)) h

/-- C90 is false of `normalize_components`: if the array `[[2]]` is used for both modes, the decomposition stands for the
tensor `[[4]]` before the call and for a tensor with an entry of at most 2 after it. (With a copy of the
array in each mode the tensor changes by the factor `(2 / (2 + eps))²` only, see `C16_normalize_components`.) -/
theorem C90_normalize_fails {eps : ℝ} (he : 0 ≤ eps) :
    ∃ M', (sharedMem 2).normalizeComponents 0 true eps = .ok M' ∧
      cpEntry (fun r => ((sharedMem 2).kt 0).weights.get [r]) ((sharedMem 2).kt 0).factorMatrices 1 [0, 0] = 4 ∧
      cpEntry (fun r => (M'.kt 0).weights.get [r]) (M'.kt 0).factorMatrices 1 [0, 0] ≤ 2 := by
  have step : ∀ x : ℝ, 0 ≤ x → zipB (· / ·) (sc11 x) ((newaxis0 (colNorms (sc11 x))).map (· + eps)) =
      .ok (sc11 (x / (x + eps))) := by
    intro x hx
    rw [colNorms_sc11 hx]
    rw [zipB_mat_mat (m := 1) (n := 1) _ rfl rfl]
    refine congrArg Except.ok ?_
    refine (eq_sc11 rfl).trans (congrArg sc11 ?_)
    rw [get_ofMat (by omega) (by omega), get_sc11]
    congr 1
  have scale : ∀ u x : ℝ, zipB (· * ·) (full [1] u) (full [1] x) = .ok (full [1] (u * x)) := by
    intro u x
    rw [zipB_vec_vec (R := 1) _ rfl rfl]
    refine congrArg Except.ok (ofFn_congr fun idx h => ?_)
    rw [get_full h, get_full h]
  set y : ℝ := 2 / (2 + eps) with hy
  have hy0 : 0 < y := by positivity
  have hy1 : y ≤ 1 := by rw [hy, div_le_one (by positivity)]; linarith
  set z : ℝ := y / (y + eps) with hz
  have hz0 : 0 < z := by positivity
  have hz1 : z ≤ 1 := by rw [hz, div_le_one (by positivity)]; linarith
  -- one pass
  have pass : ∀ (u x : ℝ) (as : List Addr) (h : Heap), 0 ≤ x → h.mem 0 = sc11 x → h.mem 1 = full [1] u →
      Mem.normalizeLoop true eps 1 (0 :: as) h =
        Mem.normalizeLoop true eps 1 as ((h.write 0 (sc11 (x / (x + eps)))).write 1 (full [1] (u * x))) := by
    intro u x as h hx h0 h1
    rw [Mem.normalizeLoop, h0]
    simp only [if_true]
    rw [step x hx, bind_ok, Heap.mem_write_ne _ _ (by decide : (1 : Addr) ≠ 0), h1, colNorms_sc11 hx, scale, bind_ok]
    rfl
  refine ⟨⟨((((sharedMem 2).heap.write 0 (sc11 y)).write 1 (full [1] (1 * 2))).write 0 (sc11 z)).write 1
    (full [1] (1 * 2 * y)), (sharedMem 2).objs, (sharedMem 2).nextObj⟩, ?_, ?_, ?_⟩
  · rw [Mem.normalizeComponents]
    rw [show ((sharedMem 2).objs 0).weights = 1 from rfl, show ((sharedMem 2).objs 0).mats = [0, 0] from rfl,
      pass 1 2 _ _ (by norm_num) rfl rfl, pass (1 * 2) y _ _ hy0.le ?_ ?_, Mem.normalizeLoop, bind_ok]
    · rfl
    · rw [Heap.mem_write_ne _ _ (by decide), Heap.mem_write_self]
    · rw [Heap.mem_write_self]
  · rw [sharedMem_kt, cpEntry_sc11, get_full (by simp)]; norm_num
  · have hk : ∀ h : Heap, Mem.kt ⟨(h.write 0 (sc11 z)).write 1 (full [1] (1 * 2 * y)), (sharedMem 2).objs,
        (sharedMem 2).nextObj⟩ 0 = ⟨1, [sc11 z, sc11 z], full [1] (1 * 2 * y)⟩ := by
      intro h
      unfold Mem.kt
      simp [sharedMem, Heap.mem_write_ne]
    rw [hk, cpEntry_sc11, get_full (by simp)]
    nlinarith [mul_le_mul hz1 hz1 hz0.le zero_le_one, mul_pos hz0 hz0]

/-! ### fits -/

/-- A state of the fit of `[[4]]` with the factor matrices `[[a]]`, `[[b]]`. -/
def st11 (a b : ℝ) (l : Option ℕ) (k : Option (NDArray ℝ)) (q : FV) (p : ℝ) : CPState where
  X := sc11 4
  XNorm := frobNorm (sc11 4)
  dec := ⟨1, [sc11 a, sc11 b], full [1] 1⟩
  nonNeg := some [false, false]
  orth := some [false, false]
  lastMode := l
  cache := k
  relChange := q
  prevSSE := p

theorem st11_sized (a b : ℝ) (l : Option ℕ) (k : Option (NDArray ℝ)) (q : FV) (p : ℝ) : (st11 a b l k q p).Sized 1 :=
  ⟨⟨rfl, by simp [Factors, st11], rfl⟩, by simp [st11], by simp [st11]⟩

theorem st11_trueSSE (a b : ℝ) (l : Option ℕ) (k : Option (NDArray ℝ)) (q : FV) (p : ℝ) :
    (st11 a b l k q p).trueSSE 1 = (4 - a * b) ^ 2 := by
  unfold CPState.trueSSE sqErr
  simp only [st11, shape_sc11, sumIdx_cons, sumIdx_nil, Finset.sum_range_one, get_sc11, cpEntry_sc11]
  rw [get_full (by simp), one_mul]

/-- The updates of the two modes. -/
theorem st11_update {E : Ext} (hE : E.SVDOk) {a b : ℝ} {l : Option ℕ} {k : Option (NDArray ℝ)} {q : FV} {p : ℝ} :
    (b ≠ 0 → CP.updateFactor E ⟨1, 0, 0, none⟩ 0 (st11 a b l k q p) =
      .ok (st11 (4 / b) b (some 0) (some (sc11 (4 * b))) q p)) ∧
    (a ≠ 0 → CP.updateFactor E ⟨1, 0, 0, none⟩ 1 (st11 a b l k q p) =
      .ok (st11 a (4 / a) (some 1) (some (sc11 (4 * a))) q p)) := by
  have hw : ∀ r < 1, (st11 a b l k q p).dec.weights.get [r] = 1 := by
    intro r hr
    exact get_full (by simpa using hr)
  constructor
  · intro hb
    obtain ⟨F, hF, e, hopt⟩ := C34_update_core hE (o := ⟨1, 0, 0, none⟩) (m := 0) (st11_sized a b l k q p)
      (by simp [st11]) hw ⟨⟨_, rfl, rfl⟩, ⟨_, rfl, rfl⟩, Or.inl ⟨rfl, rfl⟩⟩
    have hu : ∀ f, (st11 a b l k q p).updated 0 1 (sc11 f) = st11 f b (some 0) (some (sc11 (4 * b))) q p := by
      intro f
      unfold CPState.updated
      have : mttkrpMat (sc11 4) [sc11 a, sc11 b] 0 1 = sc11 (4 * b) := by
        refine (eq_sc11 rfl).trans (congrArg sc11 ?_)
        refine (get_ofMat (m := 1) (n := 1) (by omega) (by omega)).trans ?_
        simp [mttkrpEntry, rankOne]
      simp only [st11, this]
      rfl
    obtain ⟨f, rfl⟩ : ∃ f, F = sc11 f := ⟨_, eq_sc11 hF⟩
    have h0 := hopt (sc11 (4 / b)) rfl
    dsimp only at h0
    rw [hu, hu, st11_trueSSE, st11_trueSSE, div_mul_cancel₀ _ hb] at h0
    have h1 : 4 - f * b = 0 := by
      have : (4 - f * b) ^ 2 ≤ 0 := by simpa using h0
      exact pow_eq_zero_iff (two_ne_zero) |>.1 (le_antisymm this (sq_nonneg _))
    rw [e, hu, show f = 4 / b by rw [eq_div_iff hb]; linarith]
  · intro ha
    obtain ⟨F, hF, e, hopt⟩ := C34_update_core hE (o := ⟨1, 0, 0, none⟩) (m := 1) (st11_sized a b l k q p)
      (by simp [st11]) hw ⟨⟨_, rfl, rfl⟩, ⟨_, rfl, rfl⟩, Or.inl ⟨rfl, rfl⟩⟩
    have hu : ∀ f, (st11 a b l k q p).updated 1 1 (sc11 f) = st11 a f (some 1) (some (sc11 (4 * a))) q p := by
      intro f
      unfold CPState.updated
      have : mttkrpMat (sc11 4) [sc11 a, sc11 b] 1 1 = sc11 (4 * a) := by
        refine (eq_sc11 rfl).trans (congrArg sc11 ?_)
        refine (get_ofMat (m := 1) (n := 1) (by omega) (by omega)).trans ?_
        simp [mttkrpEntry, rankOne]
      simp only [st11, this]
      rfl
    obtain ⟨f, rfl⟩ : ∃ f, F = sc11 f := ⟨_, eq_sc11 hF⟩
    have h0 := hopt (sc11 (4 / a)) rfl
    dsimp only at h0
    rw [hu, hu, st11_trueSSE, st11_trueSSE, mul_div_cancel₀ _ ha] at h0
    have h1 : 4 - a * f = 0 := by
      have : (4 - a * f) ^ 2 ≤ 0 := by simpa using h0
      exact pow_eq_zero_iff (two_ne_zero) |>.1 (le_antisymm this (sq_nonneg _))
    rw [e, hu, show f = 4 / a by rw [eq_div_iff ha]; linarith]

/-- The SSE as it is computed from the cache. -/
theorem st11_sse (a b c : ℝ) (q : FV) (p : ℝ) :
    CP.sse (st11 a b (some 1) (some (sc11 c)) q p) = .ok (16 + (a * b) ^ 2 - 2 * (b * c)) := by
  have hs := st11_sized a b (some 1) (some (sc11 c)) q p
  rw [CP.sse]
  show (_ >>= _ : Py ℝ) = _
  rw [constructTensor_eq hs.wf hs.order, bind_ok, CP.innerProd]
  show ((pyGet [sc11 a, sc11 b] ((1 : ℕ) : Int) >>= fun F => _) >>= _ : Py ℝ) = _
  rw [pyGet_ok (norm_nat (by simp)), bind_ok]
  show (((zipB (· * ·) (sc11 b) (sc11 c)) >>= fun M => _) >>= _ : Py ℝ) = _
  rw [zipB_mat_mat (m := 1) (n := 1) _ rfl rfl, bind_ok]
  have hcol : colSums (ofMat 1 1 fun i j => (sc11 b).get [i, j] * (sc11 c).get [i, j]) = full [1] (b * c) := by
    refine ext_get rfl fun idx hidx => ?_
    have hv : Valid [1] idx := hidx
    obtain ⟨r, rfl, hr⟩ : ∃ r, idx = [r] ∧ r < 1 := by
      match idx, hv with
      | [r], hv => exact ⟨r, rfl, by simpa using hv⟩
    obtain rfl : r = 0 := by omega
    rw [get_full hv]
    refine (get_ofFn (s := [1]) hv).trans ?_
    simp [get_ofMat]
  rw [hcol]
  show ((zipB (· * ·) (full [1] (1 : ℝ)) (full [1] (b * c)) >>= fun v => _) >>= _ : Py ℝ) = _
  rw [zipB_vec_vec (R := 1) _ rfl rfl, bind_ok]
  refine congrArg Except.ok ?_
  have h1 : (st11 a b (some 1) (some (sc11 c)) q p).XNorm ^ 2 = 16 := by
    show frobNorm (sc11 4) ^ 2 = 16
    rw [frobNorm_sq]
    simp
    norm_num
  have h2 : frobNorm (ofFn [1, 1] (cpEntry (fun r => (full [1] (1 : ℝ)).get [r]) [sc11 a, sc11 b] 1)) ^ 2 =
      (a * b) ^ 2 := by
    rw [frobNorm_sq]
    simp only [shape_ofFn, sumIdx_cons, sumIdx_nil, Finset.sum_range_one]
    rw [get_ofFn (by simp), cpEntry_sc11, get_full (by simp), one_mul]
  have h3 : (ofFn [1] fun idx => (full [1] (1 : ℝ)).get idx * (full [1] (b * c)).get idx).data.sum = b * c := by
    have := sum_data (ofFn [1] fun idx => (full [1] (1 : ℝ)).get idx * (full [1] (b * c)).get idx) id
    rw [List.map_id] at this
    rw [this]
    simp only [shape_ofFn, sumIdx_cons, sumIdx_nil, Finset.sum_range_one, id]
    rw [get_ofFn (by simp), get_full (by simp), get_full (by simp), one_mul]
  rw [h1]
  exact congrArg₂ (fun u v => 16 + u - 2 * v) h2 h3

/-- The update of a mode of `sharedMem x` changes both factor matrices. -/
theorem shared_update {E : Ext} (hE : E.SVDOk) {x : ℝ} (hx : x ≠ 0) {l : Option ℕ} {k : Option (NDArray ℝ)} {q : FV}
    {p : ℝ} {s : CPState} (hs : CPRef.read (sharedMem x) ⟨s, 0⟩ = st11 x x l k q p) :
    CPRef.updateFactor E ⟨1, 0, 0, none⟩ 0 (sharedMem x, ⟨s, 0⟩) =
      .ok (sharedMem (4 / x), ⟨st11 (4 / x) x (some 0) (some (sc11 (4 * x))) q p, 0⟩) ∧
    CPRef.updateFactor E ⟨1, 0, 0, none⟩ 1 (sharedMem x, ⟨s, 0⟩) =
      .ok (sharedMem (4 / x), ⟨st11 x (4 / x) (some 1) (some (sc11 (4 * x))) q p, 0⟩) := by
  constructor
  · rw [CPRef.updateFactor, hs, (st11_update hE).1 hx, bind_ok]
    exact congrArg (fun M => Except.ok (M, (⟨st11 (4 / x) x (some 0) (some (sc11 (4 * x))) q p, 0⟩ : CPRef)))
      (sharedMem_write x (4 / x))
  · rw [CPRef.updateFactor, hs, (st11_update hE).2 hx, bind_ok]
    exact congrArg (fun M => Except.ok (M, (⟨st11 x (4 / x) (some 1) (some (sc11 (4 * x))) q p, 0⟩ : CPRef)))
      (sharedMem_write x (4 / x))

/-- One iteration of the fit of `[[4]]` from `sharedMem 1`, in memory. -/
theorem shared_iteration {E : Ext} (hE : E.SVDOk) {q : FV} {p : ℝ} {s : CPState}
    (hs : CPRef.read (sharedMem 1) ⟨s, 0⟩ = st11 1 1 none none q p) :
    CPRef.iteration E ⟨1, 0, 0, none⟩ (sharedMem 1, ⟨s, 0⟩) =
      .ok (sharedMem 1, ⟨st11 1 1 (some 1) (some (sc11 16)) (FV.div (p - -15) p) (-15), 0⟩) := by
  have hX : s.X = sc11 4 := congrArg CPState.X hs
  have e : CPRef.updateFactors E ⟨1, 0, 0, none⟩ (sharedMem 1, ⟨s, 0⟩) =
      .ok (sharedMem 1, ⟨st11 4 1 (some 1) (some (sc11 16)) q p, 0⟩) := by
    rw [CPRef.updateFactors, hX]
    show (CPRef.updateFactor E ⟨1, 0, 0, none⟩ 0 (sharedMem 1, ⟨s, 0⟩) >>= fun p =>
      CPRef.updateFactor E ⟨1, 0, 0, none⟩ 1 p >>= fun p => pure p) = _
    rw [(shared_update hE one_ne_zero hs).1, bind_ok, (shared_update hE (by norm_num) rfl).2, bind_ok]
    norm_num
    rfl
  have hr : CPRef.read (sharedMem 1) ⟨st11 4 1 (some 1) (some (sc11 16)) q p, 0⟩ =
    st11 1 1 (some 1) (some (sc11 16)) q p := rfl
  rw [CPRef.iteration, e, bind_ok, hr, CP.updateConvergence, st11_sse, bind_ok]
  norm_num
  rfl

theorem st11_good : (st11 1 1 none none .pinf 9).Good ⟨1, 0, 0, none⟩ := by
  refine ⟨st11_sized _ _ _ _ _ _, ⟨?_, fun m hm => by cases hm⟩, fun m hm => ?_, ?_⟩
  · show frobNorm (sc11 4) = _
    rw [frobNorm, sum_data]
    rfl
  · have hm : m < 2 := hm
    refine ⟨false, false, none, ⟨⟨_, rfl, ?_⟩, ⟨_, rfl, ?_⟩, Or.inl ⟨rfl, rfl⟩⟩, by simp⟩ <;>
      (interval_cases m <;> rfl)
  · rw [st11_trueSSE]
    show (9 : ℝ) = _
    norm_num

theorem st11_init : CP.sse (st11 1 1 none none .pinf 0) = .ok 9 := by
  have : CP.sse (st11 1 1 none none .pinf 0) = CP.sse (st11 1 1 none none .pinf 9) := rfl
  rw [this, C35_sse st11_good.sized st11_good.cached, st11_trueSSE]
  norm_num

theorem reset_kt : ((sharedMem 1).kt 0).resetWeights = (sharedMem 1).kt 0 := by
  have : ((sharedMem 1).resetWeights 0).kt 0 = ((sharedMem 1).kt 0).resetWeights := rfl
  rw [← this, sharedMem_reset]

/-- The matrix `[[4]]` is fitted exactly from copies: after one iteration the error is 0. -/
theorem copies_fit {E : Ext} (hE : E.SVDOk) (hN : E.NNLSOk) (hQ : E.QROk) :
    ∃ w, CP.fit E (plainConfig "precomputed" none) (sc11 4) (some 1) (.tensor ((sharedMem 1).kt 0))
        (CP.newObject none none 1 [] none) = .ok () w ∧
      sqErr (sc11 4) (fun r => w.st.dec.weights.get [r]) w.st.dec.factorMatrices 1 = 0 := by
  have e0 : CP.initFit E (CP.fresh none none) (sc11 4) ((sharedMem 1).kt 0) = .ok (st11 1 1 none none .pinf 9) := by
    have ho : CP.orthonormalise E 0 [false, false] [sc11 1, sc11 1] = .ok [sc11 1, sc11 1] := by
      rw [CP.orthonormalise, pyGet_ok (norm_nat (by simp)), bind_ok, CP.orthonormalise,
        pyGet_ok (norm_nat (by simp)), bind_ok]
      rfl
    rw [CP.initFit, reset_kt]
    show (CP.orthonormalise E 0 [false, false] [sc11 1, sc11 1] >>= _) = _
    rw [ho, bind_ok]
    show (CP.sse (st11 1 1 none none .pinf 0) >>= _) = _
    rw [st11_init, bind_ok]
    rfl
  obtain ⟨w, h1, h2⟩ := fit_orbit hE hN hQ (X := sc11 4) (by simp) (by simp) (t := (sharedMem 1).kt 0)
    ⟨rfl, by simp [Factors, sharedMem_kt], rfl⟩ e0
  have e1 : CP.iteration E ⟨1, 0, 0, none⟩ (st11 1 1 none none .pinf 9) = .ok w.st := by
    rw [h2]
    exact orbit_step hE hN (by decide) st11_good 0
  have e2 : CP.updateFactors E ⟨1, 0, 0, none⟩ (st11 1 1 none none .pinf 9) =
      .ok (st11 4 1 (some 1) (some (sc11 16)) .pinf 9) := by
    show (CP.updateFactor E ⟨1, 0, 0, none⟩ 0 (st11 1 1 none none .pinf 9) >>= fun p =>
      CP.updateFactor E ⟨1, 0, 0, none⟩ 1 p >>= fun p => pure p) = _
    rw [(st11_update hE).1 one_ne_zero, bind_ok, (st11_update hE).2 (by norm_num), bind_ok]
    norm_num
    rfl
  rw [CP.iteration, e2, bind_ok, CP.updateConvergence, st11_sse, bind_ok] at e1
  have e3 := pure_eq_ok.1 e1
  refine ⟨w, h1, ?_⟩
  rw [← e3]
  have := st11_trueSSE 4 1 (some 1) (some (sc11 16)) .pinf 9
  rw [CPState.trueSSE] at this
  refine Eq.trans this ?_
  norm_num

/-- C90 is false of fits: the fit of the matrix `[[4]]` with `init='precomputed'` (one iteration, rank 1) from the
decomposition that uses the array `[[1]]` for both modes returns with the decomposition it started from, whose error is 9,
and then `SSE` is `-15`. From a decomposition of equal value that has two arrays, the fit reaches the error 0. -/
theorem C90_fit_fails {E : Ext} (hE : E.SVDOk) (hN : E.NNLSOk) (hQ : E.QROk) :
    (∃ w, CPRef.fit E (plainConfig "precomputed" none) (sc11 4) (some 1) (.ref 0)
        (CPRef.newObject (sharedMem 1) none none 1 [] none) = .ok () w ∧
      w.st.1.kt w.st.2.dec = (sharedMem 1).kt 0 ∧ CP.sse (w.st.2.read w.st.1) = .ok (-15) ∧
      sqErr (sc11 4) (fun r => (w.st.1.kt w.st.2.dec).weights.get [r]) (w.st.1.kt w.st.2.dec).factorMatrices 1 = 9) ∧
    ∃ w, CP.fit E (plainConfig "precomputed" none) (sc11 4) (some 1) (.tensor ((sharedMem 1).kt 0))
        (CP.newObject none none 1 [] none) = .ok () w ∧
      sqErr (sc11 4) (fun r => w.st.dec.weights.get [r]) w.st.dec.factorMatrices 1 = 0 := by
  refine ⟨?_, copies_fit hE hN hQ⟩
  have hi : (plainConfig "precomputed" none).init.toLower = "precomputed" := by
    show "precomputed".toLower = _
    rw [String.toLower, ← String.toList_inj, String.toList_map]; decide
  set s1 : CPState := { CP.fresh none none with X := sc11 4, XNorm := frobNorm (sc11 4) } with hs1
  set s2 : CPState := { s1 with nonNeg := some [false, false], orth := some [false, false], relChange := .pinf,
                                prevSSE := 9, cache := none } with hs2
  have hinit : CPRef.initComponents E (plainConfig "precomputed" none) (.ref 0)
      ⟨(sharedMem 1, ⟨s1, (sharedMem 1).nextObj⟩), 0, 1, [], none⟩ =
      .ok () (⟨(sharedMem 1, ⟨s1, 0⟩), 0, 1, [], none⟩ : World (Mem × CPRef)) := by
    have hchk : CP.checkValid 1 (sc11 4).shape ((sharedMem 1).kt 0) = .ok () :=
      ((C62_check_partial (t := (sharedMem 1).kt 0) rfl).1).2 (by simp [Factors, sharedMem_kt])
    unfold CPRef.initComponents
    simp only [hi]
    refine modifySt_ok (f := fun p : Mem × CPRef => do
      CP.checkValid (plainConfig "precomputed" none).opts.rank p.2.st.X.shape (p.1.kt 0)
      pure (p.1, { p.2 with dec := 0 })) ?_
    show (CP.checkValid 1 (sc11 4).shape ((sharedMem 1).kt 0) >>= _) = _
    rw [hchk]; rfl
  have hrest : CPRef.initRest E (sharedMem 1, ⟨s1, 0⟩) = .ok (sharedMem 1, ⟨s2, 0⟩) := by
    have ho : CPRef.orthonormalise E 0 0 [false, false] (sharedMem 1) = .ok (sharedMem 1) := by
      rw [CPRef.orthonormalise, sharedMem_kt, pyGet_ok (norm_nat (by simp)), bind_ok, CPRef.orthonormalise,
        if_neg (by simp), sharedMem_kt, pyGet_ok (norm_nat (by simp)), bind_ok]
      rfl
    rw [CPRef.initRest]
    simp only [sharedMem_reset]
    show (CPRef.orthonormalise E 0 0 [false, false] (sharedMem 1) >>= _) = _
    rw [ho, bind_ok]
    show (CP.sse (st11 1 1 none none .pinf 0) >>= _) = _
    rw [st11_init, bind_ok]
    rfl
  have hfit : CPRef.fit E (plainConfig "precomputed" none) (sc11 4) (some 1) (.ref 0)
      (CPRef.newObject (sharedMem 1) none none 1 [] none) =
      run (CPRef.method E (plainConfig "precomputed" none)) ⟨(sharedMem 1, ⟨s2, 0⟩), 0, 1, [], none⟩ := by
    unfold CPRef.fit Fit.fit Fit.initFit
    simp only [bind_assoc]
    rw [bind_of_ok (modify_def _ _), bind_of_ok (modifySt_ok (s := (sharedMem 1, ⟨s1, (sharedMem 1).nextObj⟩)) rfl)]
    refine (bind_of_ok hinit).trans ?_
    rw [bind_of_ok (show setMaxIts (some 1) _ = .ok () _ from rfl), bind_of_ok (modifySt_ok hrest)]
  have hr2 : CPRef.read (sharedMem 1) ⟨s2, 0⟩ = st11 1 1 none none .pinf 9 := rfl
  set s3 : CPState := st11 1 1 (some 1) (some (sc11 16)) (FV.div (9 - -15) 9) (-15) with hs3
  have hneg : ¬ 0 < (CPRef.method E (plainConfig "precomputed" none)).freq := by
    show ¬ (0 : Int) < -1
    decide
  have hT : Trajectory (CPRef.method E (plainConfig "precomputed" none))
      (fun j => if j = 0 then (sharedMem 1, ⟨s2, 0⟩) else (sharedMem 1, ⟨s3, 0⟩)) 1 := by
    refine ⟨fun j hj => ?_, fun j hj => ?_, fun j hj p hp => by simp [CPRef.method, plainConfig] at hp,
      fun j hj => ⟨_, kruskal_storeIn_eq _⟩⟩
    · obtain rfl : j = 0 := by omega
      exact shared_iteration hE hr2
    · obtain rfl : j = 0 := by omega
      show CP.shouldStop ⟨1, 0, 0, none⟩ (CPRef.read (sharedMem 1) ⟨s2, 0⟩) = _
      rw [hr2]
      exact never_stops le_rfl le_rfl st11_good
  obtain ⟨w, h1, h2, -⟩ := C43_schedule (CPRef.method E (plainConfig "precomputed" none)) (L := [])
    (w := ⟨(sharedMem 1, ⟨s2, 0⟩), 0, 1, [], none⟩) (k := 1) (s' := (sharedMem 1, ⟨s3, 0⟩))
    (by show (-1 : Int) ≠ 0; decide) rfl hT (by decide) (fun h => absurd h (by show ¬ 1 < 1; decide)) rfl
    (fun _ => by show (0 : Int) < 1; decide)
    ⟨fun h => absurd h hneg, fun h => absurd h hneg, fun h => absurd h hneg⟩ (fun _ _ h => absurd h hneg)
    (fun h => absurd h hneg)
  refine ⟨w, hfit.trans h1, ?_, ?_, ?_⟩
  · rw [h2]
  · rw [h2]
    show CP.sse (st11 1 1 (some 1) (some (sc11 16)) _ _) = _
    rw [st11_sse]
    norm_num
  · rw [h2]
    have := st11_trueSSE 1 1 none none .pinf 9
    rw [CPState.trueSSE] at this
    refine Eq.trans this ?_
    norm_num

/-! ### the hypotheses are met -/

/-- A decomposition with two arrays and its normalisation. -/
example : ∃ t, (onesMem.kt 0).normalizeComponents true 1 = .ok t ∧ Usual onesMem 0 := by
  have ht : onesKT.WF diag21.shape 1 := ⟨rfl, by simp [Factors, onesKT, diag21], rfl⟩
  rw [onesMem_kt]
  obtain ⟨t, -, e, -⟩ := C16_normalize_components ht (by simp [diag21]) (eps := 1) (by norm_num)
  exact ⟨t, e, onesMem_usual⟩

end
end TK
