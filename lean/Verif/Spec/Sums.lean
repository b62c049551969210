import Verif.ND.Basic

/-!
# Specification: sums over all multi-indices of a shape
-/

namespace TK

/-- `sumIdx s f` is the sum of `f idx` over all multi-indices `idx` of an array of shape `s`
(nested sums, one per mode). -/
def sumIdx {α : Type*} [AddCommMonoid α] : List ℕ → (List ℕ → α) → α
  | [], f => f []
  | s :: ss, f => ∑ i ∈ Finset.range s, sumIdx ss fun is => f (i :: is)

section
variable {α : Type*} [AddCommMonoid α]

@[simp] theorem sumIdx_nil (f : List ℕ → α) : sumIdx [] f = f [] := rfl

@[simp] theorem sumIdx_cons (s : ℕ) (ss : List ℕ) (f : List ℕ → α) :
    sumIdx (s :: ss) f = ∑ i ∈ Finset.range s, sumIdx ss fun is => f (i :: is) := rfl

theorem sumIdx_congr : ∀ {s : List ℕ} {f g : List ℕ → α},
    (∀ idx, Valid s idx → f idx = g idx) → sumIdx s f = sumIdx s g
  | [], _, _, h => h [] (by simp)
  | _ :: _, _, _, h => Finset.sum_congr rfl fun i hi =>
      sumIdx_congr fun is his => h (i :: is) ⟨Finset.mem_range.1 hi, his⟩

theorem sumIdx_zero : ∀ (s : List ℕ), sumIdx s (fun _ => (0 : α)) = 0
  | [] => rfl
  | s :: ss => by simp [sumIdx_zero ss]

theorem sumIdx_add : ∀ (s : List ℕ) (f g : List ℕ → α),
    sumIdx s (fun i => f i + g i) = sumIdx s f + sumIdx s g
  | [], _, _ => rfl
  | s :: ss, f, g => by simp [sumIdx_add ss, Finset.sum_add_distrib]

theorem sumIdx_sum {ι : Type*} (t : Finset ι) : ∀ (s : List ℕ) (f : ι → List ℕ → α),
    sumIdx s (fun i => ∑ k ∈ t, f k i) = ∑ k ∈ t, sumIdx s (f k)
  | [], _ => rfl
  | s :: ss, f => by
    simp only [sumIdx_cons, sumIdx_sum t ss]
    rw [Finset.sum_comm]

theorem sumIdx_append : ∀ (s t : List ℕ) (f : List ℕ → α),
    sumIdx (s ++ t) f = sumIdx s fun i => sumIdx t fun j => f (i ++ j)
  | [], _, _ => rfl
  | s :: ss, t, f => by simp [sumIdx_append ss t]

theorem sumIdx_comm : ∀ (s t : List ℕ) (f : List ℕ → List ℕ → α),
    (sumIdx s fun i => sumIdx t fun j => f i j) = sumIdx t fun j => sumIdx s fun i => f i j
  | [], _, _ => rfl
  | s :: ss, t, f => by
    simp only [sumIdx_cons, sumIdx_sum]
    exact Finset.sum_congr rfl fun i _ => sumIdx_comm ss t _

theorem sum_range_mul (a b : ℕ) (f : ℕ → α) :
    ∑ p ∈ Finset.range (a * b), f p
      = ∑ i ∈ Finset.range a, ∑ j ∈ Finset.range b, f (i * b + j) := by
  induction a with
  | zero => simp
  | succ a ih => rw [Nat.succ_mul, Finset.sum_range_add, Finset.sum_range_succ, ih]

/-- A sum over C-order positions is the sum over multi-indices. -/
theorem sum_range_prod : ∀ (s : List ℕ) (f : ℕ → α),
    ∑ p ∈ Finset.range s.prod, f p = sumIdx s fun idx => f (ravel s idx)
  | [], f => by simp [ravel]
  | s :: ss, f => by
    rw [List.prod_cons, sum_range_mul]
    refine Finset.sum_congr rfl fun i _ => ?_
    rw [sum_range_prod ss]; rfl

/-- Summing over mode `n` first does not change the sum. -/
theorem sumIdx_insertIdx : ∀ (s : List ℕ) (n m : ℕ) (f : List ℕ → α), n ≤ s.length →
    sumIdx (s.insertIdx n m) f
      = ∑ i ∈ Finset.range m, sumIdx s fun is => f (is.insertIdx n i)
  | _, 0, _, _, _ => by simp
  | [], _ + 1, _, _, h => by simp at h
  | s :: ss, n + 1, m, f, h => by
    simp only [List.insertIdx_succ_cons, sumIdx_cons]
    rw [Finset.sum_comm]
    refine Finset.sum_congr rfl fun i _ => ?_
    exact sumIdx_insertIdx ss n m _ (by simpa using h)

end

section
variable {α : Type*} [NonUnitalNonAssocSemiring α]

theorem mul_sumIdx : ∀ (s : List ℕ) (c : α) (f : List ℕ → α),
    c * sumIdx s f = sumIdx s fun i => c * f i
  | [], _, _ => rfl
  | s :: ss, c, f => by simp [mul_sumIdx ss, Finset.mul_sum]

theorem sumIdx_mul : ∀ (s : List ℕ) (c : α) (f : List ℕ → α),
    sumIdx s f * c = sumIdx s fun i => f i * c
  | [], _, _ => rfl
  | s :: ss, c, f => by simp [sumIdx_mul ss, Finset.sum_mul]

end

theorem sumIdx_nonneg {α : Type*} [AddCommMonoid α] [PartialOrder α] [IsOrderedAddMonoid α] :
    ∀ {s : List ℕ} {f : List ℕ → α},
    (∀ idx, Valid s idx → 0 ≤ f idx) → 0 ≤ sumIdx s f
  | [], _, h => h [] (by simp)
  | _ :: _, _, h => Finset.sum_nonneg fun i hi =>
      sumIdx_nonneg fun is his => h (i :: is) ⟨Finset.mem_range.1 hi, his⟩

theorem sumIdx_sub {α : Type*} [AddCommGroup α] : ∀ (s : List ℕ) (f g : List ℕ → α),
    sumIdx s (fun i => f i - g i) = sumIdx s f - sumIdx s g
  | [], _, _ => rfl
  | s :: ss, f, g => by simp [sumIdx_sub ss]

end TK
