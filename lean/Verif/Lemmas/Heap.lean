import Verif.Props.CPFit
import Verif.Model.Heap
import Verif.Spec.Checkpoint

/-! # Lemmas on the heap and on `CP_ALS` objects with references -/

namespace TK
open NDArray

noncomputable section

namespace Heap

@[simp] theorem mem_write_self (h : Heap) (a : Addr) (v : NDArray ℝ) : (h.write a v).mem a = v := by simp [write]

theorem mem_write_ne (h : Heap) {a b : Addr} (v : NDArray ℝ) (hab : b ≠ a) : (h.write a v).mem b = h.mem b := by
  simp [write, hab]

@[simp] theorem next_write (h : Heap) (a : Addr) (v : NDArray ℝ) : (h.write a v).next = h.next := rfl

theorem write_self (h : Heap) (a : Addr) : h.write a (h.mem a) = h := by simp [write]

end Heap

/-- Writing to the `m`-th address of a list of different addresses. -/
theorem map_write {h : Heap} {l : List Addr} (hn : l.Nodup) {m : ℕ} (hm : m < l.length) (v : NDArray ℝ) :
    l.map (h.write l[m] v).mem = (l.map h.mem).set m v := by
  apply List.ext_getElem (by simp)
  intro i h1 h2
  have hi : i < l.length := by simpa using h1
  rw [List.getElem_map, List.getElem_set]
  by_cases hmi : m = i
  · subst hmi; simp
  · rw [if_neg hmi, List.getElem_map, Heap.mem_write_ne]
    intro h
    exact hmi ((List.Nodup.getElem_inj_iff hn).1 h).symm

theorem cp_updateFactor_inv {E : Ext} {o : CPOpts} {m : ℕ} {s s' : CPState} (e : CP.updateFactor E o m s = .ok s') :
    ∃ F', m < s.dec.factorMatrices.length ∧ s'.X = s.X ∧ s'.XNorm = s.XNorm ∧ s'.nonNeg = s.nonNeg ∧ s'.orth = s.orth ∧
      s'.dec = { s.dec with factorMatrices := s.dec.factorMatrices.set m F' } := by
  unfold CP.updateFactor at e
  simp only [bind_eq_ok, pure_eq_ok] at e
  obtain ⟨lhs, -, rhs, -, solve, -, new, -, F, hF, F', -, rfl⟩ := e
  refine ⟨F', ?_, rfl, rfl, rfl, rfl, rfl⟩
  by_contra hm
  rw [pyGet_nat_error (by omega)] at hF
  exact absurd hF (by simp)

namespace CPObj

theorem read_dec (h : Heap) (c : CPObj) : (c.read h).dec.factorMatrices = c.addrs.map h.mem := rfl

/-- An update through references to different arrays is an update of the values. -/
theorem updateFactor_spec {E : Ext} {o : CPOpts} {m : ℕ} {h : Heap} {c : CPObj} {s' : CPState} (hn : c.addrs.Nodup)
    (e : CP.updateFactor E o m (c.read h) = .ok s') :
    ∃ p, CPObj.updateFactor E o m (h, c) = .ok p ∧ p.2.read p.1 = s' ∧ p.2.addrs = c.addrs ∧
      (∀ a ∉ c.addrs, p.1.mem a = h.mem a) ∧ p.1.next = h.next := by
  obtain ⟨F', hm, -, -, -, -, hd⟩ := cp_updateFactor_inv e
  have hm' : m < c.addrs.length := by simpa [read_dec] using hm
  have hF : s'.dec.factorMatrices = (c.addrs.map h.mem).set m F' := by rw [hd]; rfl
  have hg : pyGet s'.dec.factorMatrices (m : Int) = .ok F' := by
    apply pyGet_of_getElem?
    rw [hF]; simp [hm']
  refine ⟨(h.write c.addrs[m] F', { c with st := s' }), ?_, ?_, rfl, ?_, rfl⟩
  · rw [CPObj.updateFactor, e, bind_ok, pyGet_ok (norm_nat hm'), bind_ok, hg, bind_ok]; rfl
  · unfold read
    simp only [map_write hn hm', ← hF]
  · intro a ha
    apply Heap.mem_write_ne
    rintro rfl
    exact ha (List.getElem_mem hm')

theorem updateModes_spec {E : Ext} {o : CPOpts} : ∀ {modes : List ℕ} {h : Heap} {c : CPObj} {s' : CPState},
    c.addrs.Nodup → CP.updateModes E o modes (c.read h) = .ok s' →
    ∃ p, CPObj.updateModes E o modes (h, c) = .ok p ∧ p.2.read p.1 = s' ∧ p.2.addrs = c.addrs ∧
      (∀ a ∉ c.addrs, p.1.mem a = h.mem a) ∧ p.1.next = h.next
  | [], h, c, s', _, e => by
    have e : c.read h = s' := by
      have : CP.updateModes E o [] (c.read h) = .ok (c.read h) := rfl
      rw [this] at e; injection e
    exact ⟨(h, c), rfl, e, rfl, fun _ _ => rfl, rfl⟩
  | m :: ms, h, c, s', hn, e => by
    rw [CP.updateModes, List.foldlM_cons, bind_eq_ok] at e
    obtain ⟨s1, e1, e2⟩ := e
    obtain ⟨⟨h1, c1⟩, q1, q2, q3, q4, q5⟩ := updateFactor_spec hn e1
    simp only at q2 q3 q4 q5
    obtain ⟨p, r1, r2, r3, r4, r5⟩ := updateModes_spec (h := h1) (c := c1) (modes := ms) (s' := s') (q3 ▸ hn)
      (by rw [q2]; exact e2)
    refine ⟨p, ?_, r2, r3.trans q3, fun a ha => ?_, r5.trans q5⟩
    · rw [CPObj.updateModes, List.foldlM_cons, q1, bind_ok]; exact r1
    · rw [r4 a (q3 ▸ ha), q4 a ha]

theorem repeatUpdates_spec {E : Ext} {o : CPOpts} : ∀ {n : ℕ} {h : Heap} {c : CPObj} {s' : CPState},
    c.addrs.Nodup → iterM (CP.updateFactors E o) n (c.read h) = .ok s' →
    ∃ p, CPObj.repeatUpdates E o n (h, c) = .ok p ∧ p.2.read p.1 = s' ∧ p.2.addrs = c.addrs ∧
      (∀ a ∉ c.addrs, p.1.mem a = h.mem a) ∧ p.1.next = h.next
  | 0, h, c, s', _, e => by
    have e : c.read h = s' := by
      rw [iterM] at e; injection e
    exact ⟨(h, c), rfl, e, rfl, fun _ _ => rfl, rfl⟩
  | n + 1, h, c, s', hn, e => by
    rw [iterM, bind_eq_ok] at e
    obtain ⟨s1, e1, e2⟩ := e
    obtain ⟨⟨h1, c1⟩, q1, q2, q3, q4, q5⟩ := updateModes_spec hn e1
    simp only at q2 q3 q4 q5
    obtain ⟨p, r1, r2, r3, r4, r5⟩ := repeatUpdates_spec (h := h1) (c := c1) (n := n) (s' := s') (q3 ▸ hn)
      (by rw [q2]; exact e2)
    refine ⟨p, ?_, r2, r3.trans q3, fun a ha => ?_, r5.trans q5⟩
    · rw [CPObj.repeatUpdates, CPObj.updateFactors]
      have : c.st.X.shape.length = (c.read h).X.shape.length := rfl
      simp only [this]
      rw [q1, bind_ok]; exact r1
    · rw [r4 a (q3 ▸ ha), q4 a ha]

end CPObj

end
end TK
