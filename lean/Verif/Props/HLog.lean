import Verif.Model.Log
import Verif.Lemmas.H5
import Verif.Lemmas.Logger
import Verif.Lemmas.CP

/-!
# `HDF5Logger`: C51
-/

namespace TK
open HLogger

noncomputable section

/-- A call on an `HDF5Logger`. -/
inductive HOp
  | log (row : List ℝ)
  | save

/-- The rows logged by a history. -/
def HOp.rows : List HOp → List (List ℝ)
  | [] => []
  | .log r :: ops => r :: rows ops
  | .save :: ops => rows ops

/-- Every row has a value for each of `k` targets. -/
def HOp.Sized (k : ℕ) (ops : List HOp) : Prop := ∀ r ∈ HOp.rows ops, r.length = k

/-- The calls one after the other. -/
def HOp.run (rnd : ℝ → ℝ) : List HOp → HLogger × Group → Py (HLogger × Group)
  | [], p => .ok p
  | .log r :: ops, (l, g) => do
    let p ← HLogger.log rnd r l g
    run rnd ops p
  | .save :: ops, (l, g) => do
    let p ← saveLogs rnd l g
    run rnd ops p

/-- The number of rows that should be in the file after a history that starts with `n` rows logged and `s` rows
stored, when there were `L` values in the file before: all rows at a `save` and when the total number is a
multiple of the frequency. -/
def HOp.stored (f : Int) (L : ℕ) : List HOp → ℕ → ℕ → ℕ
  | [], _, s => s
  | .log _ :: ops, n, s => stored f L ops (n + 1) (if f ∣ ((L + n + 1 : ℕ) : Int) then n + 1 else s)
  | .save :: ops, n, _ => stored f L ops n n

/-- The `p`-th column of the rows. -/
def column (p : ℕ) (rows : List (List ℝ)) : List ℝ := rows.map fun r => r.getD p 0

/-- The group holds the data `d p` under the `p`-th name. -/
def HoldsAll (g : Group) (names : List Name) (d : ℕ → List ℝ) : Prop :=
  ∀ (p : ℕ) {n}, names[p]? = some n → g.dsets.find n = some (.vseq (d p))

/-! ### the steps of `save_logs` -/

theorem dset_ok {g : Group} {n : Name} {l : List ℝ} (h : g.dsets.find n = some (.vseq l)) : dset g n = .ok l := by
  rw [dset, Dict.item_ok h, bind_ok]; rfl

theorem resize_ok {g : Group} {n : Name} {l : List ℝ} (h : g.dsets.find n = some (.vseq l)) (size : ℕ) :
    resize n size g = .ok { g with dsets := g.dsets.set n (.vseq (l.take size ++ List.replicate (size - l.length) 0)) } := by
  rw [resize, dset_ok h, bind_ok]; rfl

theorem assign_ok {rnd : ℝ → ℝ} {g : Group} {n : Name} {l vals : List ℝ} {start : ℕ}
    (h : g.dsets.find n = some (.vseq l)) (hv : vals.length = l.length - start) :
    assignFrom rnd n start vals g = .ok { g with dsets := g.dsets.set n (.vseq (l.take start ++ vals.map rnd)) } := by
  rw [assignFrom, dset_ok h, bind_ok, if_pos hv]; rfl

/-- What a crash after `j` of the steps leaves: the targets before the `j / 2`-th are complete, that one is
extended with zeros if `j` is odd, and the rest is as before. -/
def partialData (old new : ℕ → List ℝ) (size j p : ℕ) : List ℝ :=
  if 2 * p + 1 < j then new p
  else if 2 * p + 1 = j then old p ++ List.replicate (size - (old p).length) 0
  else old p

theorem runSteps_take (rnd : ℝ → ℝ) (itNum prev first : ℕ) : ∀ (names : List Name) (values : List (List ℝ))
    (old : ℕ → List ℝ) (g : Group) (j : ℕ), names.Nodup → values.length = names.length →
    HoldsAll g names old → (∀ p < names.length, (old p).length = prev) → prev ≤ itNum →
    (∀ (p : ℕ) {v}, values[p]? = some v → v.length - (prev - first) = itNum - prev) →
    ∃ g', runSteps ((saveSteps rnd itNum prev first names values).take j) g = .ok g' ∧
      (∀ k, k ∉ names → g'.dsets.find k = g.dsets.find k) ∧
      HoldsAll g' names (partialData old
        (fun p => old p ++ ((values.getD p []).drop (prev - first)).map rnd) itNum j)
  | [], [], old, g, j, _, _, _, _, _, _ => ⟨g, by cases j <;> rfl, fun _ _ => rfl, fun p n h => by simp at h⟩
  | n :: ns, v :: vs, old, g, 0, _, _, hh, _, _, _ =>
    ⟨g, rfl, fun _ _ => rfl, fun p k hk => by
      rw [partialData, if_neg (by omega), if_neg (by omega)]; exact hh p hk⟩
  | n :: ns, v :: vs, old, g, 1, hnd, _, hh, hold, hle, _ => by
    rw [List.nodup_cons] at hnd
    have h0 := hh 0 (n := n) rfl
    have hl := hold 0 (by simp)
    have htake : (old 0).take itNum = old 0 := List.take_of_length_le (by omega)
    refine ⟨{ g with dsets := g.dsets.set n (.vseq (old 0 ++ List.replicate (itNum - (old 0).length) 0)) }, ?_, ?_, ?_⟩
    · show runSteps [resize n itNum] g = _
      rw [runSteps, resize_ok h0, bind_ok, runSteps, htake]
    · intro k hk
      rw [List.mem_cons, not_or] at hk
      simp only [Dict.find_set_ne _ _ (Ne.symm hk.1)]
    · intro p k hk
      cases p with
      | zero =>
        obtain rfl : n = k := by simpa using hk
        rw [partialData, if_neg (by omega), if_pos (by omega)]
        simp only [Dict.find_set_self]
      | succ p =>
        have hkn : k ∈ ns := List.mem_of_getElem? (by simpa using hk)
        rw [partialData, if_neg (by omega), if_neg (by omega)]
        simp only [Dict.find_set_ne _ _ (fun e => hnd.1 (e ▸ hkn) : n ≠ k)]
        exact hh (p + 1) hk
  | n :: ns, v :: vs, old, g, j + 2, hnd, hlen, hh, hold, hle, hvals => by
    rw [List.nodup_cons] at hnd
    have h0 := hh 0 (n := n) rfl
    have hl := hold 0 (by simp)
    have htake : (old 0).take itNum = old 0 := List.take_of_length_le (by omega)
    set g1 : Group := { g with dsets := g.dsets.set n (.vseq (old 0 ++ List.replicate (itNum - (old 0).length) 0)) }
      with hg1
    have e1 : resize n itNum g = .ok g1 := by rw [resize_ok h0, htake]
    have hf1 : g1.dsets.find n = some (.vseq (old 0 ++ List.replicate (itNum - (old 0).length) 0)) := by
      rw [hg1]; simp only [Dict.find_set_self]
    have e2 := assign_ok (rnd := rnd) (vals := v.drop (prev - first)) (start := prev) hf1 (by
      have := hvals 0 (v := v) rfl
      rw [List.length_drop, this, List.length_append, List.length_replicate]; omega)
    have htake2 : (old 0 ++ List.replicate (itNum - (old 0).length) 0).take prev = old 0 := by
      rw [← hl, List.take_left]
    rw [htake2] at e2
    set g2 : Group := { g1 with dsets := g1.dsets.set n (.vseq (old 0 ++ (v.drop (prev - first)).map rnd)) } with hg2
    have hne : ∀ k, k ≠ n → g2.dsets.find k = g.dsets.find k := by
      intro k hk
      rw [hg2, hg1]
      simp only [Dict.find_set_ne _ _ (Ne.symm hk)]
    obtain ⟨g', k1, k2, k3⟩ := runSteps_take rnd itNum prev first ns vs (fun p => old (p + 1)) g2 j hnd.2
      (by simpa using hlen) (by
        intro p k hk
        have hkn : k ∈ ns := List.mem_of_getElem? hk
        rw [hne k (fun e => hnd.1 (e ▸ hkn))]
        exact hh (p + 1) (by simpa using hk)) (fun p hp => hold (p + 1) (by simpa using hp)) hle
      (fun p w hw => hvals (p + 1) (by simpa using hw))
    refine ⟨g', ?_, ?_, ?_⟩
    · show runSteps (resize n itNum :: assignFrom rnd n prev (v.drop (prev - first)) ::
        (saveSteps rnd itNum prev first ns vs).take j) g = _
      rw [runSteps, e1, bind_ok, runSteps, e2, bind_ok]
      exact k1
    · intro k hk
      rw [List.mem_cons, not_or] at hk
      rw [k2 k hk.2, hne k hk.1]
    · intro p k hk
      cases p with
      | zero =>
        obtain rfl : n = k := by simpa using hk
        rw [k2 n hnd.1, hg2, partialData, if_pos (by omega)]
        simp only [Dict.find_set_self]; rfl
      | succ p =>
        rw [k3 p (by simpa using hk)]
        simp only [partialData, List.getD_cons_succ]
        have c1 : 2 * (p + 1) + 1 < j + 2 ↔ 2 * p + 1 < j := by omega
        have c2 : 2 * (p + 1) + 1 = j + 2 ↔ 2 * p + 1 = j := by omega
        simp only [c1, c2]

theorem length_saveSteps (rnd : ℝ → ℝ) (a b c : ℕ) : ∀ (names : List Name) (values : List (List ℝ)),
    values.length = names.length → (saveSteps rnd a b c names values).length = 2 * names.length
  | [], [], _ => rfl
  | n :: ns, v :: vs, h => by
    rw [saveSteps, List.length_cons, List.length_cons, length_saveSteps rnd a b c ns vs (by simpa using h),
      List.length_cons]; ring

/-! ### the invariant -/

/-- The state of a logger that was opened when the file held `d`, after the rows `rows` were logged and `s` of them
stored. -/
structure HInv (rnd : ℝ → ℝ) (names : List Name) (f : Int) (L : ℕ) (d : ℕ → List ℝ) (rows : List (List ℝ)) (s : ℕ)
    (l : HLogger) (g : Group) : Prop where
  names_eq : l.names = names
  freq : l.freq = f
  first : l.first = L
  itNum : l.itNum = L + rows.length
  prev : l.prev = L + s
  le : s ≤ rows.length
  len : l.values.length = names.length
  values : ∀ p < names.length, l.values[p]? = some (column p rows)
  data : HoldsAll g names fun p => d p ++ ((column p rows).take s).map rnd

theorem appendRow_get : ∀ (vss : List (List ℝ)) (row : List ℝ) (p : ℕ) {vs : List ℝ}, vss.length = row.length →
    vss[p]? = some vs → (appendRow vss row)[p]? = some (vs ++ [row.getD p 0])
  | [], _, p, _, _, h => by simp at h
  | vs :: vss, [], _, _, h, _ => by simp at h
  | vs :: vss, v :: row, 0, _, _, h => by
    obtain rfl : vs = _ := by simpa using h
    rfl
  | vs :: vss, v :: row, p + 1, _, hl, h => by
    rw [appendRow, List.getElem?_cons_succ, List.getD_cons_succ]
    exact appendRow_get vss row p (by simpa using hl) (by simpa using h)

theorem length_appendRow : ∀ (vss : List (List ℝ)) (row : List ℝ), (appendRow vss row).length = vss.length
  | [], _ => rfl
  | vs :: vss, [] => rfl
  | vs :: vss, v :: row => by rw [appendRow, List.length_cons, length_appendRow vss row, List.length_cons]

theorem HInv.append {rnd : ℝ → ℝ} {names : List Name} {f : Int} {L : ℕ} {d : ℕ → List ℝ} {rows : List (List ℝ)}
    {s : ℕ} {l : HLogger} {g : Group} (h : HInv rnd names f L d rows s l g) {row : List ℝ}
    (hr : row.length = names.length) : HInv rnd names f L d (rows ++ [row]) s
      { l with values := appendRow l.values row, itNum := l.itNum + 1 } g := by
  refine ⟨h.names_eq, h.freq, h.first, ?_, h.prev, ?_, ?_, ?_, ?_⟩
  · show l.itNum + 1 = _
    rw [h.itNum, List.length_append]; rfl
  · rw [List.length_append]; exact h.le.trans (Nat.le_add_right _ _)
  · show (appendRow l.values row).length = _
    rw [length_appendRow]; exact h.len
  · intro p hp
    show (appendRow l.values row)[p]? = _
    rw [appendRow_get _ _ p (h.len.trans hr.symm) (h.values p hp)]
    simp [column]
  · intro p n hn
    rw [h.data p hn]
    have : column p (rows ++ [row]) = column p rows ++ [row.getD p 0] := by simp [column]
    simp only []
    rw [this, List.take_append_of_le_length (by simpa [column] using h.le)]

theorem HInv.save {rnd : ℝ → ℝ} {names : List Name} (hnd : names.Nodup) {f : Int} {L : ℕ} {d : ℕ → List ℝ}
    (hd : ∀ p < names.length, (d p).length = L) {rows : List (List ℝ)} {s : ℕ} {l : HLogger} {g : Group}
    (h : HInv rnd names f L d rows s l g) :
    ∃ l' g', saveLogs rnd l g = .ok (l', g') ∧ HInv rnd names f L d rows rows.length l' g' ∧
      ∀ k, k ∉ names → g'.dsets.find k = g.dsets.find k := by
  have hcol : ∀ p, (column p rows).length = rows.length := fun p => by simp [column]
  have hsp : l.prev - l.first = s := by rw [h.prev, h.first]; omega
  obtain ⟨g', h1, h2, h3⟩ := runSteps_take rnd l.itNum l.prev l.first l.names l.values
    (fun p => d p ++ ((column p rows).take s).map rnd) g (2 * names.length) (by rw [h.names_eq]; exact hnd)
    (by rw [h.names_eq]; exact h.len) (by rw [h.names_eq]; exact h.data) (by
      intro p hp
      rw [h.names_eq] at hp
      have := h.le
      rw [List.length_append, hd p hp, List.length_map, List.length_take, hcol, h.prev]; omega)
    (by rw [h.prev, h.itNum]; have := h.le; omega) (by
      intro p v hv
      have hp : p < names.length := by
        rw [← h.len]
        exact (List.getElem?_eq_some_iff.1 hv).1
      rw [h.values p hp] at hv
      obtain rfl := Option.some.inj hv
      rw [hcol, hsp, h.itNum, h.prev]; omega)
  rw [List.take_of_length_le (by
    rw [length_saveSteps rnd _ _ _ _ _ (by rw [h.names_eq]; exact h.len), h.names_eq])] at h1
  rw [h.names_eq] at h2 h3
  refine ⟨{ l with prev := l.itNum }, g', ?_, ⟨h.names_eq, h.freq, h.first, h.itNum, h.itNum, le_rfl, h.len, h.values, ?_⟩, h2⟩
  · rw [saveLogs, h1, bind_ok]; rfl
  · intro p n hn
    have hp : p < names.length := (List.getElem?_eq_some_iff.1 hn).1
    rw [h3 p hn, partialData, if_pos (by omega), hsp]
    have : l.values.getD p [] = column p rows := by rw [List.getD_eq_getElem?_getD, h.values p hp]; rfl
    rw [this, List.append_assoc, ← List.map_append, List.take_append_drop]
    simp only []
    rw [List.take_of_length_le (hcol p).le]

theorem run_inv {rnd : ℝ → ℝ} {names : List Name} (hnd : names.Nodup) {f : Int} (hf : 0 < f) {L : ℕ}
    {d : ℕ → List ℝ} (hd : ∀ p < names.length, (d p).length = L) : ∀ (ops : List HOp) (rows : List (List ℝ)) (s : ℕ)
    (l : HLogger) (g : Group), HOp.Sized names.length ops → HInv rnd names f L d rows s l g →
    ∃ l' g', HOp.run rnd ops (l, g) = .ok (l', g') ∧
      HInv rnd names f L d (rows ++ HOp.rows ops) (HOp.stored f L ops rows.length s) l' g' ∧
      ∀ k, k ∉ names → g'.dsets.find k = g.dsets.find k
  | [], rows, s, l, g, _, h => ⟨l, g, rfl, by simpa [HOp.rows, HOp.stored] using h, fun _ _ => rfl⟩
  | .save :: ops, rows, s, l, g, hs, h => by
    obtain ⟨l1, g1, h1, h2, h3⟩ := h.save hnd hd
    obtain ⟨l', g', k1, k2, k3⟩ := run_inv hnd hf hd ops rows rows.length l1 g1 hs h2
    refine ⟨l', g', ?_, k2, fun k hk => (k3 k hk).trans (h3 k hk)⟩
    rw [HOp.run, h1, bind_ok]; exact k1
  | .log r :: ops, rows, s, l, g, hs, h => by
    have hr : r.length = names.length := hs r (by simp [HOp.rows])
    have hs' : HOp.Sized names.length ops := fun q hq => hs q (by simp [HOp.rows, hq])
    have ha := h.append hr
    have hlen : (rows ++ [r]).length = rows.length + 1 := by simp
    have hrows : rows ++ HOp.rows (.log r :: ops) = (rows ++ [r]) ++ HOp.rows ops := by simp [HOp.rows]
    have hit : ((l.itNum + 1 : ℕ) : Int) = ((L + rows.length + 1 : ℕ) : Int) := by rw [h.itNum]
    by_cases hdiv : f ∣ ((L + rows.length + 1 : ℕ) : Int)
    · obtain ⟨l1, g1, h1, h2, h3⟩ := ha.save hnd hd
      obtain ⟨l', g', k1, k2, k3⟩ := run_inv hnd hf hd ops (rows ++ [r]) _ l1 g1 hs' h2
      refine ⟨l', g', ?_, ?_, fun k hk => (k3 k hk).trans (h3 k hk)⟩
      · rw [HOp.run, HLogger.log]
        simp only []
        rw [if_neg (by rw [h.freq]; exact hf.ne'), if_pos (by rw [h.freq, hit]; exact Int.emod_eq_zero_of_dvd hdiv), h1, bind_ok]
        exact k1
      · rw [hrows, HOp.stored, if_pos hdiv]
        rw [hlen] at k2
        exact k2
    · obtain ⟨l', g', k1, k2, k3⟩ := run_inv hnd hf hd ops (rows ++ [r]) s _ g hs' ha
      refine ⟨l', g', ?_, ?_, k3⟩
      · rw [HOp.run, HLogger.log]
        simp only []
        rw [if_neg (by rw [h.freq]; exact hf.ne'), if_neg (by rw [h.freq, hit]; exact fun e => hdiv (Int.dvd_of_emod_eq_zero e)), pure_bind]
        exact k1
      · rw [hrows, HOp.stored, if_neg hdiv]
        rw [hlen] at k2
        exact k2

/-! ## C51 -/

/-- The datasets of a new logger are created, if the names are free. -/
theorem initDsets_ok : ∀ (names : List Name) (g : Group), names.Nodup → (∀ n ∈ names, g.dsets.find n = none) →
    ∃ g', initDsets names g = .ok g' ∧ HoldsAll g' names (fun _ => []) ∧
      ∀ k, k ∉ names → g'.dsets.find k = g.dsets.find k
  | [], g, _, _ => ⟨g, rfl, fun p n h => by simp at h, fun _ _ => rfl⟩
  | n :: ns, g, hnd, hg => by
    rw [List.nodup_cons] at hnd
    have hk : ∀ k, k ≠ n → Dict.find (g.dsets ++ [(n, DSet.vseq [])]) k = g.dsets.find k := by
      intro k hk
      rw [Dict.find_append, Dict.find_cons, if_neg (Ne.symm hk)]; simp
    obtain ⟨g', h1, h2, h3⟩ := initDsets_ok ns { g with dsets := g.dsets ++ [(n, .vseq [])] } hnd.2 (by
      intro k hkn
      show Dict.find (g.dsets ++ [(n, DSet.vseq [])]) k = none
      rw [hk k (fun e => hnd.1 (e ▸ hkn))]
      exact hg k (by simp [hkn]))
    refine ⟨g', ?_, ?_, ?_⟩
    · rw [initDsets, Dict.create_ok (hg n (by simp)), bind_ok]; exact h1
    · intro p k hp
      cases p with
      | zero =>
        obtain rfl : n = k := by simpa using hp
        rw [h3 n hnd.1]
        show Dict.find (g.dsets ++ [(n, DSet.vseq [])]) n = _
        rw [Dict.find_append, hg n (by simp), Dict.find_cons, if_pos rfl]; rfl
      | succ p => exact h2 p (by simpa using hp)
    · intro k hkn
      rw [List.mem_cons, not_or] at hkn
      rw [h3 k hkn.2]
      exact hk k hkn.1

/-- C51, a new logger and any history of calls of `log` and `save_logs`: they succeed, the dataset of every target
holds exactly the first `HOp.stored …` logged values (rounded to `float32`), in order, so all targets are aligned,
and nothing else in the group is touched. -/
theorem C51_history (rnd : ℝ → ℝ) {names : List Name} (hnd : names.Nodup) {f : Int} (hf : 0 < f) {g : Group}
    (hg : ∀ n ∈ names, g.dsets.find n = none) (ops : List HOp) (hs : HOp.Sized names.length ops) :
    ∃ l0 g0 l g', HLogger.create names f g = .ok (l0, g0) ∧ HOp.run rnd ops (l0, g0) = .ok (l, g') ∧
      (∀ (p : ℕ) {n}, names[p]? = some n → g'.dsets.find n =
        some (.vseq (((column p (HOp.rows ops)).take (HOp.stored f 0 ops 0 0)).map rnd))) ∧
      ∀ k, k ∉ names → g'.dsets.find k = g.dsets.find k := by
  obtain ⟨g0, h1, h2, h3⟩ := initDsets_ok names g hnd hg
  have hI : HInv rnd names f 0 (fun _ => []) [] 0 ⟨names, names.map fun _ => [], f, 0, 0, 0⟩ g0 :=
    ⟨rfl, rfl, rfl, rfl, rfl, le_rfl, by simp, by
      intro p hp
      rw [List.getElem?_map, List.getElem?_eq_getElem hp]; rfl, by simpa [column] using h2⟩
  obtain ⟨l, g', k1, k2, k3⟩ := run_inv hnd hf (L := 0) (d := fun _ => []) (fun _ _ => rfl) ops [] 0 _ g0 hs hI
  refine ⟨_, g0, l, g', by rw [HLogger.create, h1, bind_ok]; rfl, k1, fun p n hn => ?_, fun k hk =>
    (k3 k hk).trans (h3 k hk)⟩
  simpa using k2.data p hn

/-- C51, a logger opened with `continue_old=True` on aligned datasets appends after the existing values. -/
theorem C51_continue (rnd : ℝ → ℝ) {names : List Name} (hnd : names.Nodup) (hne : names ≠ []) {f : Int} (hf : 0 < f)
    {g : Group} {d : ℕ → List ℝ} {L : ℕ} (hd : ∀ p < names.length, (d p).length = L)
    (hg : ∀ (p : ℕ) {n}, names[p]? = some n → g.dsets.find n = some (.vseq (d p))) (ops : List HOp)
    (hs : HOp.Sized names.length ops) :
    ∃ l0 l g', HLogger.continueOld names f g = .ok l0 ∧ HOp.run rnd ops (l0, g) = .ok (l, g') ∧
      (∀ (p : ℕ) {n}, names[p]? = some n → g'.dsets.find n =
        some (.vseq (d p ++ ((column p (HOp.rows ops)).take (HOp.stored f L ops 0 0)).map rnd))) ∧
      ∀ k, k ∉ names → g'.dsets.find k = g.dsets.find k := by
  have hI : HInv rnd names f L d [] 0 ⟨names, names.map fun _ => [], f, L, L, L⟩ g :=
    ⟨rfl, rfl, rfl, rfl, rfl, le_rfl, by simp, by
      intro p hp
      rw [List.getElem?_map, List.getElem?_eq_getElem hp]; rfl, by
      intro p n hn
      simpa [column] using hg p hn⟩
  obtain ⟨l, g', k1, k2, k3⟩ := run_inv hnd hf hd ops [] 0 _ g hs hI
  refine ⟨_, l, g', ?_, k1, fun p n hn => ?_, k3⟩
  · cases names with
    | nil => exact absurd rfl hne
    | cons n ns =>
      rw [HLogger.continueOld, dset_ok (hg 0 rfl), bind_ok, hd 0 (by simp)]; rfl
  · simpa using k2.data p hn

/-- **C51.** A logger of no values cannot be continued: the number of iterations is read off the first one (`IndexError`),
although creating such a logger is possible. -/
theorem C51_no_targets (f : Int) (g : Group) :
    HLogger.continueOld [] f g = .error .indexError ∧ ∃ l, HLogger.create [] f g = .ok (l, g) :=
  ⟨rfl, _, rfl⟩

/-- C51, the number of stored values when only `log` is called: with `L` values in the file before, the total is
the largest multiple of the frequency. -/
theorem C51_stored {f : ℕ} (hf : 0 < f) (L : ℕ) : ∀ (rows : List (List ℝ)) (n s : ℕ), s ≤ n →
    (∀ k, s < k → k ≤ n → ¬ f ∣ L + k) →
    HOp.stored f L (rows.map HOp.log) n s = max s (f * ((L + n + rows.length) / f) - L)
  | [], n, s, hsn, h => by
    show s = _
    rw [List.length_nil, Nat.add_zero]
    refine (max_eq_left ?_).symm
    by_contra hc
    push Not at hc
    have h1 : f * ((L + n) / f) ≤ L + n := Nat.mul_div_le _ _
    refine h (f * ((L + n) / f) - L) hc (by omega) ?_
    rw [Nat.add_sub_cancel' (by omega)]
    exact Nat.dvd_mul_right _ _
  | r :: rows, n, s, hsn, h => by
    rw [List.map_cons, HOp.stored]
    have hcast : ((f : Int) ∣ ((L + n + 1 : ℕ) : Int)) ↔ f ∣ L + n + 1 := Int.natCast_dvd_natCast
    have hlen : L + n + (r :: rows).length = L + (n + 1) + rows.length := by rw [List.length_cons]; ring
    rw [hlen]
    by_cases hd : f ∣ L + n + 1
    · rw [if_pos (hcast.2 hd), C51_stored hf L rows (n + 1) (n + 1) le_rfl (fun k h1 h2 => by omega)]
      have h2 : L + (n + 1) ≤ f * ((L + (n + 1) + rows.length) / f) := by
        obtain ⟨q, hq⟩ := hd
        have : q ≤ (L + (n + 1) + rows.length) / f := by
          rw [Nat.le_div_iff_mul_le hf, mul_comm]; omega
        calc L + (n + 1) = f * q := by omega
          _ ≤ _ := Nat.mul_le_mul_left _ this
      rw [max_eq_right (by omega), max_eq_right (by omega)]
    · rw [if_neg (fun e => hd (hcast.1 e)), C51_stored hf L rows (n + 1) s (by omega) ?_]
      intro k h1 h2
      by_cases hk : k = n + 1
      · subst hk; exact hd
      · exact h k h1 (by omega)

/-- C51 as stated, for a new logger between calls: after `n` calls of `log` every dataset holds the first
`f * (n / f)` values. -/
theorem C51_log (rnd : ℝ → ℝ) {names : List Name} (hnd : names.Nodup) {f : ℕ} (hf : 0 < f) {g : Group}
    (hg : ∀ n ∈ names, g.dsets.find n = none) (rows : List (List ℝ)) (hs : ∀ r ∈ rows, r.length = names.length) :
    ∃ l0 g0 l g', HLogger.create names f g = .ok (l0, g0) ∧ HOp.run rnd (rows.map .log) (l0, g0) = .ok (l, g') ∧
      ∀ (p : ℕ) {n}, names[p]? = some n → g'.dsets.find n =
        some (.vseq (((column p rows).take (f * (rows.length / f))).map rnd)) := by
  have hrows : ∀ rows : List (List ℝ), HOp.rows (rows.map HOp.log) = rows := by
    intro rows
    induction rows with
    | nil => rfl
    | cons r rows ih => simp [HOp.rows, ih]
  obtain ⟨l0, g0, l, g', h1, h2, h3, -⟩ := C51_history rnd hnd (f := f) (by exact_mod_cast hf) hg (rows.map .log)
    (by intro r hr; rw [hrows] at hr; exact hs r hr)
  refine ⟨l0, g0, l, g', h1, h2, fun p n hn => ?_⟩
  rw [h3 p hn, hrows, C51_stored hf 0 rows 0 0 le_rfl (fun k h1 h2 => by omega)]
  simp

/-- C51, a crash inside `save_logs` after `j` changes of the file: the targets before the `j / 2`-th have all values,
that one is extended with zeros if `j` is odd, and the others have the values stored before. -/
theorem C51_crash {rnd : ℝ → ℝ} {names : List Name} (hnd : names.Nodup) {f : Int} {L : ℕ} {d : ℕ → List ℝ}
    (hd : ∀ p < names.length, (d p).length = L) {rows : List (List ℝ)} {s : ℕ} {l : HLogger} {g : Group}
    (h : HInv rnd names f L d rows s l g) (j : ℕ) :
    ∃ g', runSteps ((saveSteps rnd l.itNum l.prev l.first l.names l.values).take j) g = .ok g' ∧
      ∀ (p : ℕ) {n}, names[p]? = some n → g'.dsets.find n = some (.vseq (
        if 2 * p + 1 < j then d p ++ (column p rows).map rnd
        else if 2 * p + 1 = j then d p ++ ((column p rows).take s).map rnd ++ List.replicate (rows.length - s) 0
        else d p ++ ((column p rows).take s).map rnd)) := by
  have hcol : ∀ p, (column p rows).length = rows.length := fun p => by simp [column]
  have hsp : l.prev - l.first = s := by rw [h.prev, h.first]; omega
  have hlen : ∀ p < names.length, (d p ++ ((column p rows).take s).map rnd).length = L + s := by
    intro p hp
    have := h.le
    rw [List.length_append, hd p hp, List.length_map, List.length_take, hcol]; omega
  obtain ⟨g', h1, h2, h3⟩ := runSteps_take rnd l.itNum l.prev l.first l.names l.values
    (fun p => d p ++ ((column p rows).take s).map rnd) g j (by rw [h.names_eq]; exact hnd)
    (by rw [h.names_eq]; exact h.len) (by rw [h.names_eq]; exact h.data) (by
      intro p hp
      rw [h.names_eq] at hp
      rw [hlen p hp, h.prev])
    (by rw [h.prev, h.itNum]; have := h.le; omega) (by
      intro p v hv
      have hp : p < names.length := by
        rw [← h.len]
        exact (List.getElem?_eq_some_iff.1 hv).1
      rw [h.values p hp] at hv
      obtain rfl := Option.some.inj hv
      rw [hcol, hsp, h.itNum, h.prev]; omega)
  refine ⟨g', h1, fun p n hn => ?_⟩
  have hp : p < names.length := (List.getElem?_eq_some_iff.1 hn).1
  rw [h.names_eq] at h3
  rw [h3 p hn, partialData, hsp]
  have : l.values.getD p [] = column p rows := by rw [List.getD_eq_getElem?_getD, h.values p hp]; rfl
  rw [this, List.append_assoc, ← List.map_append, List.take_append_drop, hlen p hp, h.itNum]
  have : L + rows.length - (L + s) = rows.length - s := by omega
  rw [this]

/-- C51 is false of the code at crash points: two values `1, 2` logged with frequency 2; a crash after the first
change of the file leaves the dataset `[0, 0]`, and a logger that continues counts these zeros as logged values. -/
theorem C51_crash_fails (n : Name) : ∃ l0 g0 l g' l1,
    HLogger.create [n] 2 Group.empty = .ok (l0, g0) ∧ HLogger.log id [1] l0 g0 = .ok (l, g0) ∧
    runSteps ((saveSteps id 2 l.prev l.first l.names (appendRow l.values [2])).take 1) g0 = .ok g' ∧
    g'.dsets.find n = some (.vseq [0, 0]) ∧ HLogger.continueOld [n] 2 g' = .ok l1 ∧ l1.itNum = 2 := by
  obtain ⟨g0, h1, h2, -⟩ := initDsets_ok [n] Group.empty (by simp) (fun _ _ => rfl)
  have h0 : g0.dsets.find n = some (.vseq []) := h2 0 rfl
  have hres := resize_ok h0 2
  refine ⟨⟨[n], [[]], 2, 0, 0, 0⟩, g0, ⟨[n], [[1]], 2, 1, 0, 0⟩,
    { g0 with dsets := g0.dsets.set n (.vseq [0, 0]) }, ⟨[n], [[]], 2, 2, 2, 2⟩, ?_, ?_, ?_, ?_, ?_, rfl⟩
  rotate_left 2
  · show runSteps [resize n 2] g0 = _
    rw [runSteps, hres, bind_ok, runSteps]; rfl
  · simp only [Dict.find_set_self]
  · rw [HLogger.continueOld, dset_ok (l := [0, 0]) (by simp only [Dict.find_set_self]), bind_ok]; rfl
  · rw [HLogger.create, h1, bind_ok]; rfl
  · rw [HLogger.log]
    simp only [appendRow, List.nil_append]
    rw [if_neg (by norm_num), if_neg (by norm_num)]; rfl

/-- Frequency 2, three values: the first two are in the file. -/
example (n : Name) : ∃ l0 g0 l g', HLogger.create [n] (2 : ℕ) Group.empty = .ok (l0, g0) ∧
    HOp.run id [.log [5], .log [6], .log [7]] (l0, g0) = .ok (l, g') ∧ g'.dsets.find n = some (.vseq [5, 6]) := by
  obtain ⟨l0, g0, l, g', h1, h2, h3⟩ := C51_log id (names := [n]) (by simp) (f := 2) (by norm_num) (g := Group.empty)
    (fun _ _ => rfl) [[5], [6], [7]] (by simp)
  refine ⟨l0, g0, l, g', h1, h2, ?_⟩
  rw [h3 0 rfl]
  simp [column]

/-- A frequency of zero raises at the first call. -/
theorem C51_zero_frequency (rnd : ℝ → ℝ) (row : List ℝ) (l : HLogger) (g : Group) (h : l.freq = 0) :
    HLogger.log rnd row l g = .error .zeroDivisionError := by
  rw [HLogger.log]; simp only [h, if_true]

end
end TK
