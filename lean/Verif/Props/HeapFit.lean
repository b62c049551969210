import Verif.Lemmas.HeapFit
import Verif.Props.Resume
import Verif.Props.Kruskal

/-!
# C89, C90: what a fit does to the decompositions of the caller, and decompositions that use one array twice

`Mem.kt M r` is the decomposition that the caller sees when looking at the object `r`.
-/

namespace TK
open NDArray Fit
open EStateM (Result)

noncomputable section

namespace CPRef

/-- A decomposition of the caller that uses every array once (and whose arrays exist). -/
structure Usual (M : Mem) (r : Addr) : Prop where
  nodup : ((M.objs r).weights :: (M.objs r).mats).Nodup
  exist : ∀ a ∈ (M.objs r).weights :: (M.objs r).mats, a < M.heap.next

/-- Two objects have no array in common. -/
def Apart (M : Mem) (r r' : Addr) : Prop :=
  ∀ a ∈ (M.objs r).weights :: (M.objs r).mats, a ∉ (M.objs r').weights :: (M.objs r').mats

end CPRef
open CPRef

/-- C90, the part that holds (and the basis of C89): if the initial decomposition uses every array once, a fit with
`init='precomputed'` on objects and arrays in memory does what the fit on values does: it has the same effects on the
checkpoint file and the loggers and leaves the decomposer in the same state. (Missing: decompositions that use an array
twice, see `C90_fit_fails` and `C90_normalize_fails`.) -/
theorem C90_fit_partial {E : Ext} {c : CP.Config} (hi : c.init.toLower = "precomputed") {X : NDArray ℝ} {mi : Option Int}
    {M : Mem} {r : Addr} (hr : Usual M r) {nonNeg orth : Option (List Bool)} {budget : Int} {loggers : List Logger}
    {file : Option H5File} {w : World CPState}
    (e : CP.fit E c X mi (.tensor (M.kt r)) (CP.newObject nonNeg orth budget loggers file) = .ok () w) :
    ∃ w', CPRef.fit E c X mi (.ref r) (CPRef.newObject M nonNeg orth budget loggers file) = .ok () w' ∧
      w'.st.2.read w'.st.1 = w.st ∧ w'.it = w.it ∧ w'.maxIts = w.maxIts ∧ w'.loggers = w.loggers ∧ w'.file = w.file ∧
      w'.st.2.dec = r ∧ w'.st.1.kt r = w.st.dec ∧ Usual w'.st.1 r ∧
      ∀ r', r' ≠ r → (∀ a ∈ (M.objs r').weights :: (M.objs r').mats, a < M.heap.next) → Apart M r' r →
        w'.st.1.kt r' = M.kt r' := by
  obtain ⟨a, w', h1, h2, -⟩ := fit_sim (method_refines E c M (· ∈ (M.objs r).arrays) r) (R00 := Start M)
    (t' := CPRef.setTarget X) (t := CP.setTarget X) setTarget_rel
    (initComponents_precomputed E hi M r hr.nodup hr.exist) mi (CPRef.newObject M nonNeg orth budget loggers file)
    (CP.newObject nonNeg orth budget loggers file) ⟨⟨rfl, rfl⟩, rfl, rfl, rfl, rfl⟩ () w e
  exact ⟨w', h1, h2.st.read, h2.it, h2.maxIts, h2.loggers, h2.file, h2.st.dec, h2.st.kt,
    ⟨h2.st.lay.nodup, h2.st.lay.bound⟩, fun r' hne hb hap => h2.st.lay.kt_same hne fun a ha => ⟨hb a ha, hap a ha⟩⟩

/-- C89, the part that holds: a fit with any other initialisation scheme leaves all decompositions that existed before it
as they were. (Missing: `init='precomputed'`, which overwrites the decomposition it is given, see `C89_overwritten` and
`C89_fails`.) -/
theorem C89_partial {E : Ext} {c : CP.Config} (hi : c.init.toLower ≠ "precomputed") {X : NDArray ℝ} {mi : Option Int}
    {M : Mem} {arg : RefArg} {nonNeg orth : Option (List Bool)} {budget : Int} {loggers : List Logger}
    {file : Option H5File} {w : World CPState}
    (e : CP.fit E c X mi (argValue M arg) (CP.newObject nonNeg orth budget loggers file) = .ok () w) :
    ∃ w', CPRef.fit E c X mi arg (CPRef.newObject M nonNeg orth budget loggers file) = .ok () w' ∧
      w'.st.2.read w'.st.1 = w.st ∧ w'.it = w.it ∧ w'.maxIts = w.maxIts ∧ w'.loggers = w.loggers ∧ w'.file = w.file ∧
      w'.st.1.kt w'.st.2.dec = w.st.dec ∧ M.nextObj ≤ w'.st.2.dec ∧
      ∀ r' < M.nextObj, (∀ a ∈ (M.objs r').weights :: (M.objs r').mats, a < M.heap.next) →
        w'.st.1.kt r' = M.kt r' := by
  obtain ⟨a, w', h1, h2, -⟩ := fit_sim (method_refines E c M (fun _ => False) M.nextObj) (R00 := Start M)
    (t' := CPRef.setTarget X) (t := CP.setTarget X) setTarget_rel
    (initComponents_other E hi M arg) mi (CPRef.newObject M nonNeg orth budget loggers file)
    (CP.newObject nonNeg orth budget loggers file) ⟨⟨rfl, rfl⟩, rfl, rfl, rfl, rfl⟩ () w e
  refine ⟨w', h1, h2.st.read, h2.it, h2.maxIts, h2.loggers, h2.file, ?_, ?_, fun r' hr' hb =>
    h2.st.lay.kt_same (Nat.ne_of_lt hr') fun a ha => ⟨hb a ha, id⟩⟩
  · rw [h2.st.dec]; exact h2.st.kt
  · rw [h2.st.dec]

/-- C89 is false for `init='precomputed'`: after the fit, the decomposition that the caller passed is the result of the
fit: the decomposition after `k` iterations, with weights 1. All other decompositions that have no array in common with it
are unchanged. -/
theorem C89_overwritten {E : Ext} (hE : E.SVDOk) (hN : E.NNLSOk) (hQ : E.QROk) {c : CP.Config}
    (hi : c.init.toLower = "precomputed") {nonNeg orth : Option (List Bool)} {X : NDArray ℝ}
    (hA : CP.Admissible c.opts nonNeg orth X.shape) (hlog : c.Measurable) (hfreq : freqOption c.freq ≠ 0)
    {M : Mem} {r : Addr} (hr : Usual M r) (ht : (M.kt r).WF X.shape c.opts.rank) {budget : Int} {mi : Option Int}
    (hb : 0 < mi.getD budget) {loggers : List Logger} {file : Option H5File}
    (hS : Storing (CP.method E c) (CP.newObject nonNeg orth budget loggers file) []) :
    ∃ s0 s w', ∃ k : ℕ, CP.initFit E (CP.fresh nonNeg orth) X (M.kt r) = .ok s0 ∧
      CP.iterate E c.opts k s0 = .ok s ∧ (k : Int) ≤ mi.getD budget ∧
      ((k : Int) < mi.getD budget → CP.shouldStop c.opts s = .ok true) ∧
      CPRef.fit E c X mi (.ref r) (CPRef.newObject M nonNeg orth budget loggers file) = .ok () w' ∧
      w'.st.1.kt r = s.dec ∧ (∀ q < c.opts.rank, (w'.st.1.kt r).weights.get [q] = 1) ∧
      ∀ r', r' ≠ r → (∀ a ∈ (M.objs r').weights :: (M.objs r').mats, a < M.heap.next) → Apart M r' r →
        w'.st.1.kt r' = M.kt r' := by
  obtain ⟨s0, w, k, e0, h1, h2, -, h4, -, h6, -, -, -, h9, -⟩ := C74_fit_completes hE hN hQ hA hlog hfreq
    (startsFrom_precomputed hi ht) ht hb hS
  obtain ⟨w', f1, f2, -, -, -, -, -, f3, -, f4⟩ := C90_fit_partial hi hr h1
  exact ⟨s0, w.st, w', k, e0, h4, h2, h6, f1, f3, fun q hq => by rw [f3]; exact h9 q hq, f4⟩

/-- A memory with the decomposition `(1, 1)`, `(1, 1)` at address 0. -/
def onesMem : Mem where
  heap := ⟨fun a => if a < 2 then ofMat 2 1 fun _ _ => 1 else full [1] 1, 3⟩
  objs := fun _ => ⟨1, [0, 1], 2⟩
  nextObj := 1

theorem onesMem_kt : onesMem.kt 0 = onesKT := rfl

theorem onesMem_usual : Usual onesMem 0 := ⟨by decide, by decide⟩

/-- A fit of one iteration with tolerances 0 and no constraints performs one iteration. -/
theorem fit_orbit {E : Ext} (hE : E.SVDOk) (hN : E.NNLSOk) (hQ : E.QROk) {X : NDArray ℝ} (h2 : 2 ≤ X.shape.length)
    (h0 : ∀ n ∈ X.shape, n ≠ 0) {t : KruskalTensor} (ht : t.WF X.shape 1) {s0 : CPState}
    (e0 : CP.initFit E (CP.fresh none none) X t = .ok s0) :
    ∃ w, CP.fit E (plainConfig "precomputed" none) X (some 1) (.tensor t) (CP.newObject none none 1 [] none) =
      .ok () w ∧ w.st = CP.orbit E ⟨1, 0, 0, none⟩ s0 1 := by
  have hA : CP.Admissible ⟨1, 0, 0, none⟩ none none X.shape :=
    ⟨by decide, h2, h0, by simp, by simp, by simp, by simp, by simp⟩
  have hi : (plainConfig "precomputed" none).init.toLower = "precomputed" := by
    show "precomputed".toLower = _
    rw [String.toLower, ← String.toList_inj, String.toList_map]; decide
  have hneg : ¬ 0 < (CP.method E (plainConfig "precomputed" none)).freq := by
    show ¬ (0 : Int) < -1
    decide
  obtain ⟨s0', w, k, e0', h1, h2, -, h4, -, h6, -⟩ := C74_fit_completes hE hN hQ
    (c := plainConfig "precomputed" none) (mi := some 1) (budget := 1) (loggers := []) (file := none) hA
    (by intro p hp; simp [plainConfig] at hp) (by decide) (startsFrom_precomputed hi ht) ht (by decide)
    ⟨fun h => absurd h hneg, fun h => absurd h hneg, fun h => absurd h hneg⟩
  rw [e0] at e0'
  obtain rfl : s0 = s0' := Except.ok.inj e0'
  obtain ⟨s0', e0'', hG, -⟩ := initFit_good (E := E) hQ (old := CP.fresh none none) (o := ⟨1, 0, 0, none⟩) rfl hA ht
  rw [e0] at e0''
  obtain rfl : s0 = s0' := Except.ok.inj e0''
  have hiter : ∀ j, CP.iterate E ⟨1, 0, 0, none⟩ j s0 = .ok (CP.orbit E ⟨1, 0, 0, none⟩ s0 j) := fun j =>
    orbit_iterate hE hN (by decide) j hG
  have hst : w.st = CP.orbit E ⟨1, 0, 0, none⟩ s0 k := by
    have : CP.iterate E ⟨1, 0, 0, none⟩ k s0 = .ok w.st := h4
    rw [hiter] at this
    exact (Except.ok.inj this).symm
  have hk : k = 1 := by
    by_contra hne
    have h2' : (k : Int) ≤ 1 := h2
    have h7 := h6 (by show (k : Int) < 1; omega)
    have h8 : CP.shouldStop ⟨1, 0, 0, none⟩ w.st = .ok true := h7
    rw [hst, never_stops le_rfl le_rfl (orbit_good hE hN (by decide) hG k).1] at h8
    cases h8
  exact ⟨w, h1, by rw [hst, hk]⟩

/-- C89 is false of the code: two fits of `diag(2, 1)` with equal options (`max_its=1`), one after the other, from the same
initial decomposition `(1, 1)`, `(1, 1)`: the first one changes the initial decomposition, the second one gives another
result. -/
theorem C89_fails {E : Ext} (hE : E.SVDOk) (hN : E.NNLSOk) (hQ : E.QROk) :
    ∃ w1 w2, CPRef.fit E (plainConfig "precomputed" none) diag21 (some 1) (.ref 0)
        (CPRef.newObject onesMem none none 1 [] none) = .ok () w1 ∧
      CPRef.fit E (plainConfig "precomputed" none) diag21 (some 1) (.ref 0)
        (CPRef.newObject w1.st.1 none none 1 [] none) = .ok () w2 ∧
      w1.st.1.kt 0 ≠ onesMem.kt 0 ∧ w2.st.1.kt 0 ≠ w1.st.1.kt 0 := by
  have hA : CP.Admissible ⟨1, 0, 0, none⟩ none none diag21.shape :=
    ⟨by decide, by simp [diag21], by simp [diag21], by simp, by simp, by simp, by simp, by simp⟩
  have hi : (plainConfig "precomputed" none).init.toLower = "precomputed" := by
    show "precomputed".toLower = _
    rw [String.toLower, ← String.toList_inj, String.toList_map]; decide
  have ht : onesKT.WF diag21.shape 1 := ⟨rfl, by simp [Factors, onesKT, diag21], rfl⟩
  obtain ⟨s0, e0, hG, hX, -, -, hw, hnn, hon, hdec⟩ := initFit_good (E := E) hQ (old := CP.fresh none none)
    (o := ⟨1, 0, 0, none⟩) rfl hA ht
  set orb := CP.orbit E ⟨1, 0, 0, none⟩ s0 with horb
  obtain ⟨g1, p1⟩ := orbit_good hE hN (by decide) hG 1
  have hX1 : (orb 1).X = diag21 := by rw [horb, p1.X, hX]
  have hd : (CP.orbit E ⟨1, 0, 0, none⟩ s0 2).dec ≠ (CP.orbit E ⟨1, 0, 0, none⟩ s0 1).dec := by
    have hx : ∀ i < 2, ∀ j < 2, s0.X.get [i, j] = if i = j then (if i = 0 then 2 else 1) else 0 := by
      intro i hi j hj
      rw [hX, diag21, get_ofMat hi hj]
    refine two_iterations_differ hE hN rfl rfl hG (by rw [hX]; rfl) (hw 0 (by decide)) ?_ (hdec rfl)
      (hx 0 (by omega) 0 (by omega)) (hx 0 (by omega) 1 (by omega)) (hx 1 (by omega) 0 (by omega))
      (hx 1 (by omega) 1 (by omega)) ?_ ?_
    · have hrep : ∀ m < s0.X.shape.length, ([false, false] : List Bool)[m]? = some false := by
        intro m hm
        rw [hX] at hm
        have : m < 2 := hm
        interval_cases m <;> rfl
      exact ⟨⟨[false, false], hnn, hrep⟩, ⟨[false, false], hon, hrep⟩⟩
    · rw [get_ofMat (by omega) (by omega)]
    · rw [get_ofMat (by omega) (by omega)]
  obtain ⟨v1, a1, b1⟩ := fit_orbit hE hN hQ (by simp [diag21]) (by simp [diag21]) ht e0
  obtain ⟨w1, c1, -, -, -, -, -, -, c2, c3, -⟩ := C90_fit_partial hi onesMem_usual (M := onesMem) (r := 0) (by
    rw [onesMem_kt]; exact a1)
  have hk1 : w1.st.1.kt 0 = (orb 1).dec := by rw [c2, b1]
  have e1 : CP.initFit E (CP.fresh none none) diag21 (orb 1).dec = .ok ((orb 1).withLast none none .pinf) := by
    have := initFit_resume (E := E) (nonNeg := none) g1 (by rw [p1.weights]; exact hw)
      (by rw [p1.nonNeg, hnn, p1.X, hX]; rfl) (by rw [p1.orth, hon, p1.X, hX]; rfl)
    rwa [p1.X, hX] at this
  have ht1 : (orb 1).dec.WF diag21.shape 1 := by
    have := g1.sized.wf
    rwa [p1.X, hX] at this
  obtain ⟨v2, a2, b2⟩ := fit_orbit hE hN hQ (by simp [diag21]) (by simp [diag21]) ht1 e1
  obtain ⟨w2, d1, -, -, -, -, -, -, d2, -⟩ := C90_fit_partial hi c3 (M := w1.st.1) (r := 0) (by
    rw [hk1]; exact a2)
  have hk2 : w2.st.1.kt 0 = (orb 2).dec := by
    obtain ⟨s', e', -⟩ := iteration_total hE hN (by decide) g1
    rw [d2, b2, orbit_withLast E _ (orb 1) none none .pinf (by rw [hX1]; simp [diag21]) e' 0, horb, orbit_add]
  refine ⟨w1, w2, c1, d1, fun heq => ?_, by rw [hk1, hk2]; exact hd⟩
  have hk : (orb 1).dec = onesKT := by rw [← hk1, heq, onesMem_kt]
  rw [hk] at a2
  rw [a1] at a2
  have : v1 = v2 := by injection a2
  rw [← this] at d2
  exact hd (by rw [← hk2, d2, b1])

/-! ### the hypotheses are met -/

/-- `C90_fit_partial` and `C89_overwritten`: a fit from a decomposition of the memory `onesMem`. -/
example {E : Ext} (hE : E.SVDOk) (hN : E.NNLSOk) (hQ : E.QROk) : Usual onesMem 0 ∧
    ∃ w, CP.fit E (plainConfig "precomputed" none) diag21 (some 1) (.tensor (onesMem.kt 0))
      (CP.newObject none none 1 [] none) = .ok () w := by
  have hA : CP.Admissible ⟨1, 0, 0, none⟩ none none diag21.shape :=
    ⟨by decide, by simp [diag21], by simp [diag21], by simp, by simp, by simp, by simp, by simp⟩
  have ht : onesKT.WF diag21.shape 1 := ⟨rfl, by simp [Factors, onesKT, diag21], rfl⟩
  obtain ⟨s0, e0, -⟩ := initFit_good (E := E) hQ (old := CP.fresh none none) (o := ⟨1, 0, 0, none⟩) rfl hA ht
  obtain ⟨w, h, -⟩ := fit_orbit hE hN hQ (by simp [diag21]) (by simp [diag21]) ht e0
  exact ⟨onesMem_usual, w, by rw [onesMem_kt]; exact h⟩

end
end TK
