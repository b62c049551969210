import Verif.Model.HeapFit
import Verif.Lemmas.Refine
import Verif.Lemmas.Parafac2Init

/-! # Lemmas on `CP_ALS` objects that refer to decompositions in a memory -/

namespace TK
open NDArray Fit

noncomputable section

/-- `omega` for addresses. -/
local macro "aomega" : tactic => `(tactic| (try dsimp only [Addr] at *) <;> omega)

/-- The addresses of the arrays of an object. -/
def KTObj.arrays (o : KTObj) : List Addr := o.weights :: o.mats

/-- The memory `M` has evolved from `M0` by work on the object `d`: its arrays are different from each other, each of them
is in `S` or was not used in `M0`, and nothing else has changed. -/
structure Mem.Lay (M0 : Mem) (S : Addr → Prop) (d : Addr) (M : Mem) : Prop where
  nodup : (M.objs d).arrays.Nodup
  bound : ∀ a ∈ (M.objs d).arrays, a < M.heap.next
  owns : ∀ a ∈ (M.objs d).arrays, S a ∨ M0.heap.next ≤ a
  grow : M0.heap.next ≤ M.heap.next
  growObj : M0.nextObj ≤ M.nextObj
  arrays : ∀ a < M0.heap.next, ¬ S a → M.heap.mem a = M0.heap.mem a
  objs : ∀ r, r ≠ d → M.objs r = M0.objs r

namespace Mem

variable {M0 M : Mem} {S : Addr → Prop} {d : Addr}

/-- An object that is not worked on, with arrays that are not worked on, looks the same as before. -/
theorem Lay.kt_same (h : Lay M0 S d M) {r : Addr} (hr : r ≠ d)
    (ha : ∀ a ∈ (M0.objs r).arrays, a < M0.heap.next ∧ ¬ S a) : M.kt r = M0.kt r := by
  have h1 : M.heap.mem (M0.objs r).weights = M0.heap.mem (M0.objs r).weights :=
    h.arrays _ (ha _ (by simp [KTObj.arrays])).1 (ha _ (by simp [KTObj.arrays])).2
  have h2 : (M0.objs r).mats.map M.heap.mem = (M0.objs r).mats.map M0.heap.mem :=
    List.map_congr_left fun a h3 =>
      h.arrays a (ha a (by simp [KTObj.arrays, h3])).1 (ha a (by simp [KTObj.arrays, h3])).2
  unfold kt
  rw [h.objs r hr, h1, h2]

theorem Lay.weights_notMem (h : Lay M0 S d M) : (M.objs d).weights ∉ (M.objs d).mats := (List.nodup_cons.1 h.nodup).1

/-- Writing to an array of the object. -/
theorem Lay.write (h : Lay M0 S d M) {a : Addr} (ha : a ∈ (M.objs d).arrays) (F : NDArray ℝ) :
    Lay M0 S d { M with heap := M.heap.write a F } := by
  refine ⟨h.nodup, h.bound, h.owns, h.grow, h.growObj, fun b hb hS => ?_, h.objs⟩
  rw [← h.arrays b hb hS]
  apply Heap.mem_write_ne
  rintro rfl
  rcases h.owns _ ha with h1 | h1
  · exact hS h1
  · aomega

theorem Lay.kt_writeMat (h : Lay M0 S d M) {m : ℕ} (hm : m < (M.objs d).mats.length) (F : NDArray ℝ) :
    Mem.kt { M with heap := M.heap.write (M.objs d).mats[m] F } d =
      { M.kt d with factorMatrices := (M.kt d).factorMatrices.set m F } := by
  have hw : (M.heap.write (M.objs d).mats[m] F).mem (M.objs d).weights = M.heap.mem (M.objs d).weights :=
    Heap.mem_write_ne _ _ fun h1 => h.weights_notMem (h1 ▸ List.getElem_mem hm)
  unfold kt
  simp only [map_write (List.nodup_cons.1 h.nodup).2 hm, hw]

theorem Lay.kt_writeWeights (h : Lay M0 S d M) (w : NDArray ℝ) :
    Mem.kt { M with heap := M.heap.write (M.objs d).weights w } d = { M.kt d with weights := w } := by
  have : (M.objs d).mats.map (M.heap.write (M.objs d).weights w).mem = (M.objs d).mats.map M.heap.mem :=
    List.map_congr_left fun a ha => Heap.mem_write_ne _ _ fun h1 => h.weights_notMem (h1 ▸ ha)
  unfold kt
  simp only [this, Heap.mem_write_self]

theorem Lay.resetWeights (h : Lay M0 S d M) :
    Lay M0 S d (M.resetWeights d) ∧ (M.resetWeights d).kt d = (M.kt d).resetWeights :=
  ⟨h.write (by simp [KTObj.arrays]) _, h.kt_writeWeights _⟩

theorem Lay.setMat (h : Lay M0 S d M) {m : ℕ} (hm : m < (M.objs d).mats.length) (F : NDArray ℝ) :
    Lay M0 S d (M.setMat d m F) ∧
      (M.setMat d m F).kt d = { M.kt d with factorMatrices := (M.kt d).factorMatrices.set m F } := by
  have ho : (M.setMat d m F).objs d = { M.objs d with mats := (M.objs d).mats.set m M.heap.next } := by
    simp [Mem.setMat, Heap.alloc]
  have hmem : ∀ a < M.heap.next, (M.setMat d m F).heap.mem a = M.heap.mem a := by
    intro a ha
    exact Function.update_of_ne (by aomega) _ _
  have hnew : (M.setMat d m F).heap.mem M.heap.next = F := Function.update_self _ _ _
  have hnext : (M.setMat d m F).heap.next = M.heap.next + 1 := rfl
  have hfresh : M.heap.next ∉ (M.objs d).arrays := fun hc => by
    have := h.bound _ hc
    aomega
  have hsub : ∀ a ∈ ((M.setMat d m F).objs d).arrays, a = M.heap.next ∨ a ∈ (M.objs d).arrays := by
    intro a ha
    rw [ho, KTObj.arrays, List.mem_cons] at ha
    rcases ha with rfl | ha
    · exact .inr (by simp [KTObj.arrays])
    · rcases List.mem_or_eq_of_mem_set ha with h1 | h1
      · exact .inr (by simp [KTObj.arrays, h1])
      · exact .inl h1
  refine ⟨⟨?_, ?_, ?_, ?_, h.growObj, ?_, ?_⟩, ?_⟩
  · rw [ho, KTObj.arrays]
    have h1 := List.nodup_cons.1 h.nodup
    refine List.nodup_cons.2 ⟨fun hc => ?_, h1.2.set ?_⟩
    · rcases List.mem_or_eq_of_mem_set hc with h2 | h2
      · exact h1.1 h2
      · exact hfresh (by simp [KTObj.arrays, ← h2])
    · exact fun hc => hfresh (by simp [KTObj.arrays, hc])
  · intro a ha
    rw [hnext]
    rcases hsub a ha with rfl | h1
    · aomega
    · have := h.bound a h1
      aomega
  · intro a ha
    rcases hsub a ha with rfl | h1
    · exact .inr h.grow
    · exact h.owns a h1
  · rw [hnext]
    have := h.grow
    aomega
  · intro a ha hS
    have := h.grow
    rw [hmem a (by aomega), h.arrays a ha hS]
  · intro r hr
    rw [← h.objs r hr]
    exact Function.update_of_ne hr _ _
  · have e1 : ((M.objs d).mats.set m M.heap.next).map (M.setMat d m F).heap.mem = ((M.objs d).mats.map M.heap.mem).set m F := by
      apply List.ext_getElem (by simp)
      intro i h1 h2
      have hi : i < (M.objs d).mats.length := by simpa using h1
      rw [List.getElem_map, List.getElem_set, List.getElem_set]
      by_cases hmi : m = i
      · rw [if_pos hmi, if_pos hmi, hnew]
      · rw [if_neg hmi, if_neg hmi, List.getElem_map, hmem]
        exact h.bound _ (by simp [KTObj.arrays])
    have e2 : (M.setMat d m F).heap.mem (M.objs d).weights = M.heap.mem (M.objs d).weights :=
      hmem _ (h.bound _ (by simp [KTObj.arrays]))
    unfold kt
    simp only [ho, e1, e2]

/-- A new decomposition. -/
theorem newKT_spec (M0 : Mem) (t : KruskalTensor) :
    ∃ M, M0.newKT t = (M0.nextObj, M) ∧ Lay M0 (fun _ => False) M0.nextObj M ∧ M.kt M0.nextObj = t := by
  obtain ⟨as, h', e, e1, e2, e3, e4, e5⟩ := Heap.allocAll_spec t.factorMatrices M0.heap
  refine ⟨⟨(h'.alloc t.weights).2, Function.update M0.objs M0.nextObj ⟨t.rank, as, h'.next⟩, M0.nextObj + 1⟩, ?_, ?_, ?_⟩
  · unfold newKT
    rw [e]; rfl
  · have ho : (Function.update M0.objs M0.nextObj ⟨t.rank, as, h'.next⟩ : Addr → KTObj) M0.nextObj =
      ⟨t.rank, as, h'.next⟩ := Function.update_self _ _ _
    refine ⟨?_, ?_, ?_, ?_, ?_, ?_, ?_⟩
    · dsimp only
      rw [ho, KTObj.arrays]
      refine List.nodup_cons.2 ⟨fun hc => ?_, e2⟩
      have := e3 _ hc
      aomega
    · dsimp only
      rw [ho, KTObj.arrays]
      intro a ha
      show a < h'.next + 1
      rcases List.mem_cons.1 ha with rfl | ha
      · exact Nat.lt_succ_self _
      · have := e3 _ ha
        aomega
    · dsimp only
      rw [ho, KTObj.arrays]
      intro a ha
      rcases List.mem_cons.1 ha with rfl | ha
      · exact .inr e5
      · exact .inr (e3 _ ha).1
    · show M0.heap.next ≤ h'.next + 1
      aomega
    · exact Nat.le_succ _
    · intro a ha _
      show Function.update h'.mem h'.next t.weights a = _
      rw [Function.update_of_ne (by aomega), e4 a ha]
    · intro r hr
      exact Function.update_of_ne hr _ _
  · have h1 : as.map (Function.update h'.mem h'.next t.weights) = t.factorMatrices := by
      rw [← e1]
      refine List.map_congr_left fun a ha => Function.update_of_ne ?_ _ _
      have := e3 _ ha
      aomega
    unfold kt
    simp only [Function.update_self, Heap.alloc, h1]

end Mem

namespace CPRef

/-- The decomposer with references is in the state `s`, its decomposition is the object `d`, and the memory has evolved
from `M0` as described by `Mem.Lay`. -/
structure Rel (M0 : Mem) (S : Addr → Prop) (d : Addr) (p : Mem × CPRef) (s : CPState) : Prop where
  lay : Mem.Lay M0 S d p.1
  dec : p.2.dec = d
  read : p.2.read p.1 = s
  norm : s.XNorm = frobNorm s.X

variable {M0 : Mem} {S : Addr → Prop} {d : Addr} {p : Mem × CPRef} {s s1 : CPState}

theorem Rel.kt (h : Rel M0 S d p s) : p.1.kt d = s.dec := by
  rw [← h.read, ← h.dec]; rfl

theorem read_eq {M : Mem} {c : CPRef} {s : CPState} (h : M.kt c.dec = s.dec) (hs : { c.st with dec := s.dec } = s) :
    c.read M = s := by
  rw [CPRef.read, h, hs]

theorem Rel.X (h : Rel M0 S d p s) : p.2.st.X = s.X := by rw [← h.read]; rfl

theorem updateFactor_rel {E : Ext} {o : CPOpts} {m : ℕ} (h : Rel M0 S d p s) (e : CP.updateFactor E o m s = .ok s1) :
    ∃ p1, updateFactor E o m p = .ok p1 ∧ Rel M0 S d p1 s1 := by
  obtain ⟨F', hm, hX, hN, -, -, hd⟩ := cp_updateFactor_inv e
  obtain ⟨M, c⟩ := p
  have hdec : c.dec = d := h.dec
  have hlen : m < (M.objs d).mats.length := by
    rw [← h.kt] at hm
    simpa [Mem.kt] using hm
  have hF : s1.dec.factorMatrices = (M.kt d).factorMatrices.set m F' := by rw [hd, h.kt]
  have hg : pyGet s1.dec.factorMatrices (m : Int) = .ok F' := by
    apply pyGet_of_getElem?
    rw [hF]; simp [Mem.kt, hlen]
  refine ⟨({ M with heap := M.heap.write (M.objs d).mats[m] F' }, { c with st := s1 }), ?_, ?_⟩
  · rw [updateFactor]
    simp only [h.read, e, bind_ok, hdec]
    rw [pyGet_ok (norm_nat hlen), bind_ok, hg, bind_ok]; rfl
  · refine ⟨h.lay.write (by simp [KTObj.arrays]) _, hdec, ?_, by rw [hN, h.norm, hX]⟩
    refine read_eq ?_ rfl
    dsimp only
    rw [hdec, h.lay.kt_writeMat hlen, h.kt, hd]

theorem updateModes_rel {E : Ext} {o : CPOpts} : ∀ {modes : List ℕ} {p : Mem × CPRef} {s s1 : CPState},
    Rel M0 S d p s → CP.updateModes E o modes s = .ok s1 →
    ∃ p1, modes.foldlM (fun p m => updateFactor E o m p) p = .ok p1 ∧ Rel M0 S d p1 s1
  | [], p, s, s1, h, e => by
    have : CP.updateModes E o [] s = .ok s := rfl
    rw [this] at e
    injection e with e
    subst e
    exact ⟨p, rfl, h⟩
  | m :: ms, p, s, s1, h, e => by
    rw [CP.updateModes, List.foldlM_cons, bind_eq_ok] at e
    obtain ⟨s2, e1, e2⟩ := e
    obtain ⟨p2, f1, h2⟩ := updateFactor_rel h e1
    obtain ⟨p1, f2, h1⟩ := updateModes_rel h2 e2
    exact ⟨p1, by rw [List.foldlM_cons, f1, bind_ok]; exact f2, h1⟩

theorem iteration_rel {E : Ext} {o : CPOpts} (h : Rel M0 S d p s) (e : CP.iteration E o s = .ok s1) :
    ∃ p1, iteration E o p = .ok p1 ∧ Rel M0 S d p1 s1 := by
  rw [CP.iteration, bind_eq_ok] at e
  obtain ⟨s2, e1, e2⟩ := e
  obtain ⟨p2, f1, h2⟩ := updateModes_rel h e1
  refine ⟨(p2.1, { p2.2 with st := s1 }), ?_, ?_⟩
  · rw [iteration, updateFactors, h.X, f1, bind_ok, h2.read, e2, bind_ok]; rfl
  · rw [CP.updateConvergence, bind_eq_ok] at e2
    obtain ⟨v, -, e3⟩ := e2
    have e3 := pure_eq_ok.1 e3
    refine ⟨h2.lay, h2.dec, read_eq ?_ rfl, ?_⟩
    · dsimp only
      rw [h2.dec, h2.kt, ← e3]
    · rw [← e3]; exact h2.norm

theorem orthonormalise_lay {E : Ext} : ∀ {on : List Bool} {mode : ℕ} {M : Mem} {fs : List (NDArray ℝ)},
    Mem.Lay M0 S d M → CP.orthonormalise E mode on (M.kt d).factorMatrices = .ok fs →
    ∃ M1, orthonormalise E d mode on M = .ok M1 ∧ Mem.Lay M0 S d M1 ∧ M1.kt d = { M.kt d with factorMatrices := fs }
  | [], mode, M, fs, h, e => by
    rw [CP.orthonormalise] at e
    injection e with e
    subst e
    exact ⟨M, rfl, h, rfl⟩
  | b :: on, mode, M, fs, h, e => by
    rw [CP.orthonormalise, bind_eq_ok] at e
    obtain ⟨F, e1, e2⟩ := e
    have hm : mode < (M.objs d).mats.length := by
      by_contra hm
      rw [pyGet_nat_error (by simpa [Mem.kt] using hm)] at e1
      exact absurd e1 (by simp)
    cases b with
    | false =>
      obtain ⟨M1, f1, f2, f3⟩ := orthonormalise_lay h e2
      exact ⟨M1, by rw [orthonormalise, e1, bind_ok]; exact f1, f2, f3⟩
    | true =>
      obtain ⟨g1, g2⟩ := h.setMat hm (E.qr F).1
      have e2' : CP.orthonormalise E (mode + 1) on ((M.setMat d mode (E.qr F).1).kt d).factorMatrices = .ok fs := by
        rw [g2]; exact e2
      obtain ⟨M1, f1, f2, f3⟩ := orthonormalise_lay g1 e2'
      exact ⟨M1, by rw [orthonormalise, e1, bind_ok]; exact f1, f2, by rw [f3, g2]⟩

theorem initRest_rel {E : Ext} (h : Rel M0 S d p s) (e : CP.initFit E s s.X s.dec = .ok s1) :
    ∃ p1, initRest E p = .ok p1 ∧ Rel M0 S d p1 s1 := by
  obtain ⟨M, c⟩ := p
  have hdec : c.dec = d := h.dec
  have hkt : M.kt d = s.dec := h.kt
  obtain ⟨l1, k1⟩ := h.lay.resetWeights
  have hread : { c.st with dec := s.dec } = s := by
    have := h.read
    rw [CPRef.read] at this
    dsimp only at this
    rw [hdec, hkt] at this
    exact this
  have hnn : c.st.nonNeg = s.nonNeg := by rw [← hread]
  have hon : c.st.orth = s.orth := by rw [← hread]
  unfold CP.initFit at e
  simp only [bind_eq_ok, pure_eq_ok] at e
  obtain ⟨fs, e1, v, e2, e3⟩ := e
  have hfs : ((M.resetWeights d).kt d).factorMatrices = s.dec.resetWeights.factorMatrices := by
    show _ = _
    rw [show (M.resetWeights d).kt d = (M.kt d).resetWeights from k1, hkt]
  obtain ⟨M1, f1, f2, f3⟩ := orthonormalise_lay (E := E) l1 (by rw [hfs]; exact e1)
  have hk : M1.kt d = { s.dec.resetWeights with factorMatrices := fs } := by
    rw [f3, show (M.resetWeights d).kt d = (M.kt d).resetWeights from k1, hkt]
  set nn := s.nonNeg.getD (List.replicate s.dec.resetWeights.factorMatrices.length false) with hnn'
  set on := s.orth.getD (List.replicate s.dec.resetWeights.factorMatrices.length false) with hon'
  have hst : ({ s with
        X := s.X
        XNorm := frobNorm s.X
        dec := { s.dec.resetWeights with factorMatrices := fs }
        nonNeg := some nn
        orth := some on
        relChange := .pinf } : CPState) =
      CPRef.read M1 { c with st := { c.st with nonNeg := some nn, orth := some on, relChange := .pinf } } := by
    rw [CPRef.read]
    dsimp only
    rw [hdec, hk, ← h.norm, ← hread]
  refine ⟨(M1, { c with st := { c.st with
    nonNeg := some nn
    orth := some on
    relChange := .pinf
    prevSSE := v
    cache := none } }), ?_, ?_⟩
  · rw [hst] at e2
    dsimp only at e2
    rw [hdec] at e2
    unfold initRest
    dsimp only
    rw [hdec, hfs, hnn, hon, ← hnn', ← hon', f1, bind_ok, e2, bind_ok]
    rfl
  · refine ⟨f2, hdec, ?_, ?_⟩
    · rw [← e3, CPRef.read]
      dsimp only
      rw [hdec, hk, ← h.norm, ← hread]
    · rw [← e3]

/-- What is known of the decomposer before `init_components`: the memory is `M0`, and all attributes except the
decomposition are those of `s`. -/
def Start (M0 : Mem) (p : Mem × CPRef) (s : CPState) : Prop := p.1 = M0 ∧ { p.2.st with dec := s.dec } = s

/-- The same after `set_target`. -/
def Ready (M0 : Mem) (p : Mem × CPRef) (s : CPState) : Prop := Start M0 p s ∧ s.XNorm = frobNorm s.X

theorem setTarget_rel {X : NDArray ℝ} (h : Start M0 p s) (e : CP.setTarget X s = .ok s1) :
    ∃ p1, setTarget X p = .ok p1 ∧ Ready M0 p1 s1 := by
  rw [CP.setTarget] at e
  injection e with e
  subst e
  obtain ⟨rfl, h2⟩ := h
  refine ⟨_, rfl, ⟨rfl, ?_⟩, rfl⟩
  dsimp only
  rw [← h2]

theorem Ready.X (h : Ready M0 p s) : p.2.st.X = s.X := by rw [← h.1.2]
theorem Ready.nonNeg (h : Ready M0 p s) : p.2.st.nonNeg = s.nonNeg := by rw [← h.1.2]

/-- A new decomposition is assigned. -/
theorem setDec_rel (h : Ready M0 p s) (t : KruskalTensor) :
    Rel M0 (fun _ => False) M0.nextObj (setDec t p) { s with dec := t } := by
  obtain ⟨M, c⟩ := p
  obtain ⟨⟨h1, h2⟩, h3⟩ := h
  obtain rfl : M = M0 := h1
  obtain ⟨M1, e1, e2, e3⟩ := Mem.newKT_spec M t
  have : setDec t (M, c) = (M1, { c with dec := M.nextObj }) := by
    rw [setDec]; dsimp only; rw [e1]
  rw [this]
  refine ⟨e2, rfl, read_eq e3 ?_, h3⟩
  dsimp only
  rw [← h2]

/-- The object of the caller is assigned. -/
theorem setRef_rel {r : Addr} (h : Ready M0 p s) (hn : (M0.objs r).arrays.Nodup)
    (hb : ∀ a ∈ (M0.objs r).arrays, a < M0.heap.next) :
    Rel M0 (· ∈ (M0.objs r).arrays) r (p.1, { p.2 with dec := r }) { s with dec := M0.kt r } := by
  obtain ⟨M, c⟩ := p
  obtain ⟨⟨h1, h2⟩, h3⟩ := h
  obtain rfl : M = M0 := h1
  refine ⟨⟨hn, hb, fun a ha => .inl ha, le_rfl, le_rfl, fun _ _ _ => rfl, fun _ _ => rfl⟩, rfl, read_eq rfl ?_, h3⟩
  dsimp only
  rw [← h2]

theorem method_refines (E : Ext) (c : CP.Config) (M0 : Mem) (S : Addr → Prop) (d : Addr) :
    Refines (Rel M0 S d) (method E c) (CP.method E c) where
  dec := by
    intro p s h
    show p.1.kt p.2.dec = s.dec
    rw [h.dec, h.kt]
  stop := by
    intro p s b h e
    show CP.shouldStop _ _ = _
    rw [h.read]; exact e
  prepare := by
    intro p s s1 h e
    have e : (Except.ok s : Py CPState) = .ok s1 := e
    injection e with e
    subst e
    exact ⟨p, rfl, h⟩
  step := iteration_rel
  post := by
    intro p s s1 h e
    have e : (Except.ok s : Py CPState) = .ok s1 := e
    injection e with e
    subst e
    exact ⟨p, rfl, h⟩
  initRest := initRest_rel
  logs := by
    show List.Forall₂ _ (c.logs.map _) c.logs
    rw [List.forall₂_map_left_iff]
    refine List.forall₂_same.2 fun l _ => ⟨rfl, fun p s v h e => ?_⟩
    show l.2 (p.2.read p.1) = _
    rw [h.read]; exact e
  storeDec := rfl
  freq := rfl
  hasPath := rfl
  typeName := rfl
  usesLoopVar := rfl
  writesIts := rfl

theorem resolve_eq {σ σ' : Type} {w' : World σ'} {w : World σ} (h : w'.file = w.file) (q : CkPath) :
    q.resolve w' = q.resolve w := by
  cases q with
  | own => rw [CkPath.resolve, CkPath.resolve, h]
  | other f => rfl

/-- `load_checkpoint` creates a new decomposition. -/
theorem loadCheckpoint_sim (E : Ext) (c : CP.Config) (M0 : Mem) (f : FileArg) (n : Option Int) :
    Sim (Ready M0) (Rel M0 (fun _ => False) M0.nextObj) (fun _ _ => True)
      (loadCheckpoint (method E c) f n) (loadCheckpoint (CP.method E c) f n) := by
  unfold loadCheckpoint
  refine Sim.bind (R1 := Ready M0) Sim.liftSame fun f' f hf => ?_
  subst hf
  dsimp only
  have key : ∀ n : Int, Sim (Ready M0) (Rel M0 (fun _ => False) M0.nextObj) (fun _ _ => True)
      (do
        let g ← lift (f'.groups.item (ckName n))
        let d ← lift ((method E c).loadDec g)
        let w ← MonadState.get
        lift ((method E c).check d w.st)
        set { w with st := (method E c).setDec d w.st })
      (do
        let g ← lift (f'.groups.item (ckName n))
        let d ← lift ((CP.method E c).loadDec g)
        let w ← MonadState.get
        lift ((CP.method E c).check d w.st)
        set { w with st := (CP.method E c).setDec d w.st }) := by
    intro n
    refine Sim.bind (R1 := Ready M0) Sim.liftSame fun g' g hg => ?_
    subst hg
    refine Sim.bind (R1 := Ready M0) (Q := Eq) (Sim.lift fun a ha => ⟨a, ha, rfl⟩) fun t' t ht => ?_
    subst ht
    refine Sim.bind (R1 := Ready M0) Sim.get fun w' w hw => ?_
    refine Sim.bind (R1 := Ready M0) (Q := Eq) (Sim.lift fun a ha => ⟨a, ?_, rfl⟩) fun _ _ _ => ?_
    · show CP.checkValid _ w'.st.2.st.X.shape _ = _
      rw [hw.st.X]; exact ha
    · exact Sim.set ⟨setDec_rel hw.st t', hw.it, hw.maxIts, hw.loggers, hw.file⟩
  have key2 : ∀ n : Int, Sim (Ready M0) (Ready M0) (fun _ _ => True)
      (modify fun w => { w with it := n } : Fit (Mem × CPRef) PUnit) (modify fun w => { w with it := n } : Fit CPState PUnit) :=
    fun n => Sim.modify fun w' w hw => ⟨hw.st, rfl, hw.maxIts, hw.loggers, hw.file⟩
  have thr : ∀ {α β β' : Type} {Q : β' → β → Prop} {e : PyErr} {x' : Fit (Mem × CPRef) β'} {k : α → Fit CPState β},
      Sim (Ready M0) (Rel M0 (fun _ => False) M0.nextObj) Q x' (throw e >>= k) := by
    intro α β β' Q e x' k w' w _ b v h
    obtain ⟨a, w1, h1, -⟩ := ok_of_bind h
    cases h1
  have key3 : ∀ n : Int, Sim (Ready M0) (Rel M0 (fun _ => False) M0.nextObj) (fun _ _ => True)
      (do
        modify fun w => { w with it := n }
        if (!f'.hasName (ckName n)) = true then throw .valueError
        let g ← lift (f'.groups.item (ckName n))
        let d ← lift ((method E c).loadDec g)
        let w ← MonadState.get
        lift ((method E c).check d w.st)
        set { w with st := (method E c).setDec d w.st })
      (do
        modify fun w => { w with it := n }
        if (!f'.hasName (ckName n)) = true then throw .valueError
        let g ← lift (f'.groups.item (ckName n))
        let d ← lift ((CP.method E c).loadDec g)
        let w ← MonadState.get
        lift ((CP.method E c).check d w.st)
        set { w with st := (CP.method E c).setDec d w.st }) := by
    intro n
    refine Sim.bind (key2 n) fun _ _ _ => ?_
    by_cases hn : (!f'.hasName (ckName n)) = true
    · simp only [if_pos hn]
      exact thr
    · simp only [if_neg hn]
      exact key n
  by_cases hk : (!f'.root.attrs.has finalKey) = true
  · simp only [if_pos hk]
    exact thr
  · simp only [if_neg hk]
    cases n with
    | some n => exact Sim.bind (R1 := Ready M0) (Q := Eq) (Sim.pure rfl) fun a' a ha => ha ▸ key3 a'
    | none => exact Sim.bind (R1 := Ready M0) Sim.liftSame fun a' a ha => ha ▸ key3 a'

/-- The value of the argument `initial_decomposition` in a memory. -/
def argValue (M : Mem) : RefArg → InitArg KruskalTensor
  | .none => .none
  | .ref r => .tensor (M.kt r)
  | .path q => .path q

theorem argValue_given (M : Mem) (arg : RefArg) : (argValue M arg).given = arg.given := by cases arg <;> rfl

/-- `init='precomputed'`: the decomposition is the object of the caller. -/
theorem initComponents_precomputed (E : Ext) {c : CP.Config} (hi : c.init.toLower = "precomputed") (M0 : Mem) (r : Addr)
    (hn : (M0.objs r).arrays.Nodup) (hb : ∀ a ∈ (M0.objs r).arrays, a < M0.heap.next) :
    Sim (Ready M0) (Rel M0 (· ∈ (M0.objs r).arrays) r) (fun _ _ => True)
      (initComponents E c (.ref r)) (CP.initComponents E c (.tensor (M0.kt r))) := by
  unfold initComponents CP.initComponents
  simp only [hi]
  have n1 : ¬ ("precomputed" = "random") := by decide
  have n2 : ¬ ("precomputed" = "svd") := by decide
  have n3 : ¬ ("precomputed" = "from_checkpoint") := by decide
  have n4 : ∀ b : Bool, ¬ ((b && !(["precomputed", "from_checkpoint"].contains "precomputed")) = true) := by decide
  simp only [if_neg (n4 _), if_neg n1, if_neg n2, if_neg n3, if_true]
  refine Sim.modifySt fun {p s s1} h e => ?_
  rw [bind_eq_ok] at e
  obtain ⟨u, e1, e2⟩ := e
  have e2 := pure_eq_ok.1 e2
  subst e2
  refine ⟨_, ?_, setRef_rel h hn hb⟩
  rw [h.X, h.1.1, e1]; rfl

/-- All other initialisation schemes create a new decomposition. -/
theorem initComponents_other (E : Ext) {c : CP.Config} (hi : c.init.toLower ≠ "precomputed") (M0 : Mem) (arg : RefArg) :
    Sim (Ready M0) (Rel M0 (fun _ => False) M0.nextObj) (fun _ _ => True)
      (initComponents E c arg) (CP.initComponents E c (argValue M0 arg)) := by
  unfold initComponents CP.initComponents
  rw [argValue_given]
  have thr : ∀ {α β β' : Type} {Q : β' → β → Prop} {e : PyErr} {x' : Fit (Mem × CPRef) β'} {k : α → Fit CPState β},
      Sim (Ready M0) (Rel M0 (fun _ => False) M0.nextObj) Q x' (throw e >>= k) := by
    intro α β β' Q e x' k w' w _ b v h
    obtain ⟨a, w1, h1, -⟩ := ok_of_bind h
    cases h1
  dsimp only
  by_cases hg : (arg.given && !(["precomputed", "from_checkpoint"].contains c.init.toLower)) = true
  · simp only [if_pos hg]
    exact thr
  · simp only [if_neg hg, if_neg hi]
    by_cases h1 : c.init.toLower = "random"
    · simp only [if_pos h1]
      refine Sim.modifySt fun {p s s1} h e => ?_
      rw [bind_eq_ok] at e
      obtain ⟨t, e1, e2⟩ := e
      have e2 := pure_eq_ok.1 e2
      subst e2
      refine ⟨_, ?_, setDec_rel h t⟩
      rw [h.X, h.nonNeg, e1]; rfl
    · simp only [if_neg h1]
      by_cases h2 : c.init.toLower = "svd"
      · simp only [if_pos h2]
        refine Sim.modifySt fun {p s s1} h e => ?_
        rw [bind_eq_ok] at e
        obtain ⟨t, e1, e2⟩ := e
        have e2 := pure_eq_ok.1 e2
        subst e2
        refine ⟨_, ?_, setDec_rel h t⟩
        rw [h.X, e1]; rfl
      · simp only [if_neg h2]
        by_cases h3 : c.init.toLower = "from_checkpoint"
        · simp only [if_pos h3]
          cases arg with
          | none => exact Sim.throw
          | ref r => exact Sim.throw
          | path q =>
            refine Sim.bind (R1 := Ready M0) Sim.get fun w' w hw => ?_
            rw [resolve_eq hw.file]
            exact loadCheckpoint_sim E c M0 _ _
        · simp only [if_neg h3]
          cases hf : c.isFile c.init with
          | none => exact Sim.throw
          | some q =>
            refine Sim.bind (R1 := Ready M0) Sim.get fun w' w hw => ?_
            rw [resolve_eq hw.file]
            exact loadCheckpoint_sim E c M0 _ _

end CPRef
end
end TK
