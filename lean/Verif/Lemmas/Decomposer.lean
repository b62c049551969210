import Verif.Lemmas.Logger
import Verif.Lemmas.CP

/-! # Lemmas about the fit loops and checkpoints -/

namespace TK
open EStateM (Result)

noncomputable section

namespace Fit
variable {σ τ α β : Type}

theorem bind_def (x : Fit σ α) (f : α → Fit σ β) (w : World σ) :
    (x >>= f) w = match x w with
      | .ok a w' => f a w'
      | .error e w' => .error e w' := by
  change EStateM.bind x f w = _
  unfold EStateM.bind
  cases x w <;> rfl

theorem bind_of_ok {x : Fit σ α} {f : α → Fit σ β} {w w' : World σ} {a : α} (h : x w = .ok a w') :
    (x >>= f) w = f a w' := by rw [bind_def, h]

theorem bind_of_error {x : Fit σ α} {f : α → Fit σ β} {w w' : World σ} {e : PyErr} (h : x w = .error e w') :
    (x >>= f) w = .error e w' := by rw [bind_def, h]

@[simp] theorem get_def (w : World σ) : (get : Fit σ (World σ)) w = .ok w w := rfl
@[simp] theorem set_def (w w' : World σ) : (set w' : Fit σ PUnit) w = .ok () w' := rfl
@[simp] theorem modify_def (f : World σ → World σ) (w : World σ) : (modify f : Fit σ PUnit) w = .ok () (f w) := rfl
@[simp] theorem pure_def (a : α) (w : World σ) : (pure a : Fit σ α) w = .ok a w := rfl
@[simp] theorem throw_def (e : PyErr) (w : World σ) : (throw e : Fit σ α) w = .error e w := rfl

theorem lift_ok {x : Py α} {a : α} (h : x = .ok a) (w : World σ) : (lift x : Fit σ α) w = .ok a w := by
  rw [h]; rfl

theorem lift_error {x : Py α} {e : PyErr} (h : x = .error e) (w : World σ) :
    (lift x : Fit σ α) w = .error e w := by
  rw [h]; rfl

/-- The world after a call, whether it returned or raised. -/
def after (r : Result PyErr (World σ) α) : World σ :=
  match r with
  | .ok _ w => w
  | .error _ w => w

/-- Did the call raise? -/
def raised (r : Result PyErr (World σ) α) : Option PyErr :=
  match r with
  | .ok _ _ => none
  | .error e _ => some e

/-- A call that leaves a property of the world alone, whether it returns or raises. -/
def Keeps (P : World σ → Prop) (x : Fit σ α) : Prop := ∀ w, P w → P (after (x w))

theorem Keeps.bind {P : World σ → Prop} {x : Fit σ α} {f : α → Fit σ β} (hx : Keeps P x)
    (hf : ∀ a, Keeps P (f a)) : Keeps P (x >>= f) := by
  intro w hw
  rw [bind_def]
  have := hx w hw
  cases h : x w with
  | ok a w' => rw [h] at this; exact hf a w' this
  | error e w' => rw [h] at this; exact this

theorem Keeps.pure {P : World σ → Prop} (a : α) : Keeps P (Pure.pure a : Fit σ α) := fun _ h => h
theorem Keeps.throw {P : World σ → Prop} (e : PyErr) : Keeps P (MonadExcept.throw e : Fit σ α) := fun _ h => h
theorem Keeps.lift {P : World σ → Prop} (x : Py α) : Keeps P (Fit.lift x : Fit σ α) := by
  intro w h
  cases x <;> exact h

/-- The call keeps the numerical state, the iteration number and the budget, whatever happens. -/
def SameRun (w w' : World σ) : Prop := w'.st = w.st ∧ w'.it = w.it ∧ w'.maxIts = w.maxIts

theorem storeCheckpoint_same (m : Method σ τ) (w : World σ) : SameRun w (after (storeCheckpoint m w)) := by
  unfold storeCheckpoint
  rw [bind_of_ok (get_def w)]
  by_cases hp : m.hasPath = true
  · rw [if_pos hp, bind_of_ok (set_def _ _)]
    cases h1 : storeAttrs m w.it (w.file.getD H5File.empty).root with
    | error e => rw [bind_of_error (lift_error rfl _)]; exact ⟨rfl, rfl, rfl⟩
    | ok root =>
      rw [bind_of_ok (lift_ok rfl _), bind_of_ok (set_def _ _)]
      cases h2 : ({ w.file.getD H5File.empty with root := root } : H5File).createGroup (ckName w.it) with
      | error e => rw [bind_of_error (lift_error rfl _)]; exact ⟨rfl, rfl, rfl⟩
      | ok f =>
        rw [bind_of_ok (lift_ok rfl _), bind_of_ok (set_def _ _)]
        cases h3 : m.storeDec (m.dec w.st) Group.empty with
        | error e => rw [bind_of_error (lift_error rfl _)]; exact ⟨rfl, rfl, rfl⟩
        | ok g =>
          rw [bind_of_ok (lift_ok rfl _), bind_of_ok (set_def _ _)]
          cases h4 : writeLoggers (m.logs.map Prod.fst) w.loggers
              { f with groups := f.groups.set (ckName w.it) g } with
          | error e => rw [bind_of_error (lift_error rfl _)]; exact ⟨rfl, rfl, rfl⟩
          | ok q =>
            rw [bind_of_ok (lift_ok rfl _)]
            exact ⟨rfl, rfl, rfl⟩
  · rw [if_neg hp]; exact ⟨rfl, rfl, rfl⟩

end Fit

/-! ### Storing a checkpoint -/

section Store
variable {σ τ : Type}
open Fit

theorem finalKey_ne_its : finalKey ≠ ckItsKey := by decide
theorem decTypeKey_ne_its : decTypeKey ≠ ckItsKey := by decide
theorem decTypeKey_ne_final : decTypeKey ≠ finalKey := by decide

theorem ckName_injective : Function.Injective ckName := fun a b h =>
  fmtInt_injective 5 (List.append_cancel_left h)

theorem prefix_ckName (n : Int) : "checkpoint".toList <+: ckName n :=
  ⟨'_' :: fmtInt 5 n, rfl⟩

/-- The logger writes succeed on a well-formed file and touch only the groups of the loggers. -/
theorem writeLoggers_ok : ∀ {names : List Name} (ls : List Logger) {f : H5File},
    f.root.dsets = [] → LogsOk f names → (f.groups.map Prod.fst).Nodup →
    ∃ ls' f', writeLoggers names ls f = .ok (ls', f') ∧ f'.root = f.root ∧
      (∀ k, k ∉ names → f'.groups.find k = f.groups.find k) ∧
      (∀ ns, LogsOk f ns → LogsOk f' ns) ∧ (f'.groups.map Prod.fst).Nodup ∧
      (∀ k, f'.groups.has k = true → f.groups.has k = true ∨ k ∈ names)
  | [], ls, f, _, _, hu => ⟨ls, f, by cases ls <;> rfl, rfl, fun _ _ => rfl, fun _ h => h, hu, fun _ h => .inl h⟩
  | n :: ns, [], f, _, _, hu => ⟨[], f, rfl, rfl, fun _ _ => rfl, fun _ h => h, hu, fun _ h => .inl h⟩
  | n :: ns, l :: ls, f, hd, hl, hu => by
    have hdn : f.root.dsets.has n = false := by rw [hd]; rfl
    have hw : ∃ g its vals, l.writeTo n f = .ok (l.flushed, { f with groups := f.groups.set n g }) ∧
        LogData { f with groups := f.groups.set n g } n its vals := by
      rcases (hl n (by simp)).2 with h | ⟨its, vals, h⟩
      · obtain ⟨g, h1, h2⟩ := writeTo_new l hdn h
        exact ⟨g, _, _, h1, h2⟩
      · obtain ⟨g, h1, h2⟩ := writeTo_old l hdn h
        exact ⟨g, _, _, h1, h2⟩
    obtain ⟨g, its, vals, h1, h2⟩ := hw
    have hstep : ∀ ns', LogsOk f ns' → LogsOk { f with groups := f.groups.set n g } ns' := by
      intro ns' hns k hk
      refine ⟨(hns k hk).1, ?_⟩
      by_cases hkn : n = k
      · subst hkn; exact .inr ⟨its, vals, h2⟩
      · rcases (hns k hk).2 with h | ⟨i, v, h⟩
        · left; simp only [Dict.find_set_ne _ _ hkn, h]
        · right; exact ⟨i, v, h.set_ne hkn⟩
    obtain ⟨ls', f', h3, h4, h5, h6, h7, h8⟩ := writeLoggers_ok (names := ns) ls
      (f := { f with groups := f.groups.set n g }) hd
      (hstep ns fun k hk => hl k (by simp [hk])) (Dict.nodup_set _ _ hu)
    refine ⟨l.flushed :: ls', f', ?_, h4, ?_, fun ns' h => h6 ns' (hstep ns' h), h7, ?_⟩
    · rw [writeLoggers, h1, bind_ok]; simp only; rw [h3, bind_ok]; rfl
    · intro k hk
      rw [List.mem_cons, not_or] at hk
      rw [h5 k hk.2]
      simp only [Dict.find_set_ne _ _ (Ne.symm hk.1)]
    · intro k hk
      rcases h8 k hk with h | h
      · rcases Dict.has_set.1 h with h | h
        · exact .inl h
        · exact .inr (by simp [h])
      · exact .inr (by simp [h])

theorem storeAttrs_ok (m : Method σ τ) (it : Int) {g : Group} {L : List (Int × τ)}
    (hi : g.attrs.find ckItsKey = if m.writesIts = true ∧ L ≠ [] then some (.ints (L.map Prod.fst)) else none) :
    ∃ g', storeAttrs m it g = .ok g' ∧ g'.dsets = g.dsets ∧ g'.attrs.find finalKey = some (.int it) ∧
      g'.attrs.find ckItsKey = if m.writesIts = true then some (.ints (L.map Prod.fst ++ [it])) else none := by
  unfold storeAttrs
  by_cases hw : m.writesIts = true
  · simp only [hw, if_true, true_and] at hi ⊢
    by_cases hL : L = []
    · subst hL
      rw [if_neg (by simp)] at hi
      have hh : g.attrs.has ckItsKey = false := by rw [Dict.has_eq_isSome, hi]; rfl
      rw [hh]
      simp only [Bool.false_eq_true, if_false, pure_bind]
      refine ⟨_, rfl, rfl, ?_, ?_⟩
      · simp only [Group.setAttr]
        rw [Dict.find_set_ne _ _ decTypeKey_ne_final, Dict.find_set_self]
      · simp only [Group.setAttr]
        rw [Dict.find_set_ne _ _ decTypeKey_ne_its, Dict.find_set_ne _ _ finalKey_ne_its, Dict.find_set_self]
        rfl
    · rw [if_pos hL] at hi
      have hh : g.attrs.has ckItsKey = true := by rw [Dict.has_eq_isSome, hi]; rfl
      have hg : intsAttr g ckItsKey = .ok (L.map Prod.fst) := by
        rw [intsAttr, Dict.item_ok hi, bind_ok]; rfl
      rw [hh]
      simp only [if_true, hg, bind_ok, pure_bind]
      refine ⟨_, rfl, rfl, ?_, ?_⟩
      · simp only [Group.setAttr]
        rw [Dict.find_set_ne _ _ decTypeKey_ne_final, Dict.find_set_self]
      · simp only [Group.setAttr]
        rw [Dict.find_set_ne _ _ decTypeKey_ne_its, Dict.find_set_ne _ _ finalKey_ne_its, Dict.find_set_self]
  · have hw' : m.writesIts = false := by simpa using hw
    simp only [hw', Bool.false_eq_true, if_false, false_and, pure_bind] at hi ⊢
    refine ⟨_, rfl, rfl, ?_, ?_⟩
    · simp only [Group.setAttr]; rw [Dict.find_set_self]
    · simp only [Group.setAttr]; rw [Dict.find_set_ne _ _ finalKey_ne_its, hi]

/-- A checkpoint under a new number: the call succeeds and the file has exactly one checkpoint more. -/
theorem storeCheckpoint_ok (m : Method σ τ) {w : World σ} {L : List (Int × τ)} (hp : m.hasPath = true)
    (hc : CheckpointsAt m.storeDec m.writesIts w.file L)
    (hl : LogsOk (w.file.getD H5File.empty) (m.logs.map Prod.fst)) (hn : w.it ∉ L.map Prod.fst)
    {g : Group} (hs : m.storeDec (m.dec w.st) Group.empty = .ok g) :
    ∃ ls f, storeCheckpoint m w = .ok () { w with file := some f, loggers := ls } ∧
      Checkpoints m.storeDec m.writesIts f (L ++ [(w.it, m.dec w.st)]) ∧
      LogsOk f (m.logs.map Prod.fst) := by
  unfold storeCheckpoint
  rw [bind_of_ok (get_def w), if_pos hp, bind_of_ok (set_def _ _)]
  obtain ⟨root, hr, hrd, hrf, hri⟩ := storeAttrs_ok m w.it hc.its
  rw [bind_of_ok (lift_ok hr _), bind_of_ok (set_def _ _)]
  have hnew : (w.file.getD H5File.empty).groups.has (ckName w.it) = false := by
    rw [← Bool.not_eq_true]
    intro h
    obtain ⟨p, hpL, he⟩ := hc.only _ h (prefix_ckName _)
    exact hn (List.mem_map.2 ⟨p, hpL, (ckName_injective he).symm⟩)
  have hfind : (w.file.getD H5File.empty).groups.find (ckName w.it) = none :=
    Dict.find_eq_none_iff.2 (Dict.has_false_iff.1 hnew)
  have hcg : ({ w.file.getD H5File.empty with root := root } : H5File).createGroup (ckName w.it) =
      .ok { root := root, groups := (w.file.getD H5File.empty).groups ++ [(ckName w.it, Group.empty)] } := by
    rw [H5File.createGroup]
    rw [if_neg (by rw [hrd, hc.noData]; simp [Dict.has]), Dict.create_ok hfind, bind_ok]; rfl
  rw [bind_of_ok (lift_ok hcg _), bind_of_ok (set_def _ _), bind_of_ok (lift_ok hs _), bind_of_ok (set_def _ _)]
  obtain ⟨gs, hgs⟩ : ∃ gs, gs = Dict.set ((w.file.getD H5File.empty).groups ++ [(ckName w.it, Group.empty)])
    (ckName w.it) g := ⟨_, rfl⟩
  have hgf : gs.find (ckName w.it) = some g := by rw [hgs, Dict.find_set_self]
  have hgo : ∀ k, k ≠ ckName w.it → gs.find k = (w.file.getD H5File.empty).groups.find k := by
    intro k hk
    rw [hgs, Dict.find_set_ne _ _ (Ne.symm hk), Dict.find_append, Dict.find_cons, if_neg (Ne.symm hk)]
    simp
  have hgh : ∀ k, gs.has k = true → (w.file.getD H5File.empty).groups.has k = true ∨ k = ckName w.it := by
    intro k hk
    rw [hgs] at hk
    rcases Dict.has_set.1 hk with h | h
    · rw [Dict.has_iff, List.map_append, List.mem_append] at h
      rcases h with h | h
      · exact .inl (Dict.has_iff.2 h)
      · exact .inr (by simpa using h)
    · exact .inr h
  have hgu : (gs.map Prod.fst).Nodup := by
    rw [hgs]
    refine Dict.nodup_set _ _ ?_
    rw [List.map_append, List.nodup_append]
    refine ⟨hc.unique, by simp, ?_⟩
    intro a ha b hb
    rw [List.map_cons, List.map_nil, List.mem_singleton] at hb
    rintro rfl
    rw [hb] at ha
    exact Dict.has_false_iff.1 hnew ha
  rw [← hgs]
  have hck : ∀ n ∈ m.logs.map Prod.fst, n ≠ ckName w.it := fun n hn h =>
    (hl n hn).1 (h ▸ prefix_ckName _)
  obtain ⟨ls', f', h3, h4, h5, h6, h7, h8⟩ := writeLoggers_ok (names := m.logs.map Prod.fst) w.loggers
    (f := { root := root, groups := gs }) (by simp only [hrd, hc.noData])
    (by
      intro n hn
      refine ⟨(hl n hn).1, ?_⟩
      rcases (hl n hn).2 with h | ⟨i, v, g', hg', h1, h2⟩
      · left; simp only [hgo n (hck n hn), h]
      · right; exact ⟨i, v, g', by simp only [hgo n (hck n hn), hg'], h1, h2⟩)
    hgu
  rw [bind_of_ok (lift_ok h3 _)]
  refine ⟨ls', f', rfl, ?_, ?_⟩
  · have hkeep : ∀ n : Int, f'.groups.find (ckName n) = gs.find (ckName n) := fun n => by
      refine h5 _ fun h => (hl _ h).1 (prefix_ckName n)
    refine ⟨?_, ?_, ?_, ?_, ?_, ?_, h7⟩
    · rw [List.map_append, List.nodup_append]
      refine ⟨hc.nodup, by simp, ?_⟩
      intro a ha b hb
      rw [List.map_cons, List.map_nil, List.mem_singleton] at hb
      rintro rfl
      rw [hb] at ha
      exact hn ha
    · intro p hp
      rcases List.mem_append.1 hp with hp | hp
      · obtain ⟨g', hg', hf'⟩ := hc.group p hp
        refine ⟨g', hg', ?_⟩
        have hne : ckName p.1 ≠ ckName w.it := fun h =>
          hn (List.mem_map.2 ⟨p, hp, ckName_injective h⟩)
        exact (hkeep p.1).trans ((hgo _ hne).trans hf')
      · rw [List.mem_singleton] at hp
        subst hp
        exact ⟨g, hs, (hkeep w.it).trans hgf⟩
    · intro k hk hpre
      rcases h8 k hk with h | h
      · rcases hgh k h with h | h
        · obtain ⟨p, hp, he⟩ := hc.only k h hpre
          exact ⟨p, by simp [hp], he⟩
        · exact ⟨(w.it, m.dec w.st), by simp, h⟩
      · exact absurd hpre (hl k h).1
    · rw [h4]; simp only [List.getLast?_append, List.getLast?_singleton, Option.some_or, Option.map_some]
      exact hrf
    · rw [h4]
      refine hri.trans ?_
      by_cases hw : m.writesIts = true <;> simp [hw]
    · rw [h4]; simp only [hrd, hc.noData]
  · refine h6 _ ?_
    intro n hn
    refine ⟨(hl n hn).1, ?_⟩
    rcases (hl n hn).2 with h | ⟨i, v, g', hg', h1, h2⟩
    · left; simp only [hgo n (hck n hn), h]
    · right; exact ⟨i, v, g', by simp only [hgo n (hck n hn), hg'], h1, h2⟩

/-- A checkpoint under a number that is taken: the call raises, after the attributes have been changed. -/
theorem storeCheckpoint_collision (m : Method σ τ) {w : World σ} {L : List (Int × τ)} (hp : m.hasPath = true)
    (hc : CheckpointsAt m.storeDec m.writesIts w.file L) (hn : w.it ∈ L.map Prod.fst) :
    ∃ f, storeCheckpoint m w = .error .nameExists { w with file := some f } ∧
      f.groups = (w.file.getD H5File.empty).groups ∧ f.root.attrs.find finalKey = some (.int w.it) ∧
      f.root.attrs.find ckItsKey =
        if m.writesIts = true then some (.ints (L.map Prod.fst ++ [w.it])) else none := by
  unfold storeCheckpoint
  rw [bind_of_ok (get_def w), if_pos hp, bind_of_ok (set_def _ _)]
  obtain ⟨root, hr, hrd, hrf, hri⟩ := storeAttrs_ok m w.it hc.its
  rw [bind_of_ok (lift_ok hr _), bind_of_ok (set_def _ _)]
  obtain ⟨p, hpL, he⟩ := List.mem_map.1 hn
  obtain ⟨g, _, hg⟩ := hc.group p hpL
  have hh : (w.file.getD H5File.empty).groups.has (ckName w.it) = true := by
    rw [Dict.has_eq_isSome, ← he]; rw [show ckName p.1 = "checkpoint_".toList ++ fmtInt 5 p.1 from rfl, hg]; rfl
  have hcg : ({ w.file.getD H5File.empty with root := root } : H5File).createGroup (ckName w.it) =
      .error .nameExists := by
    rw [H5File.createGroup, if_neg (by rw [hrd, hc.noData]; simp [Dict.has]), Dict.create_error hh, bind_error]
  rw [bind_of_error (lift_error hcg _)]
  exact ⟨_, rfl, rfl, hrf, hri⟩

theorem storeCheckpoint_noPath (m : Method σ τ) (w : World σ) (hp : m.hasPath = false) :
    storeCheckpoint m w = .error .typeError w := by
  unfold storeCheckpoint
  rw [bind_of_ok (get_def w), hp]; rfl

end Store

/-! ### The loop -/

section Loop
variable {σ τ : Type}
open Fit

theorem divides_ok {f n : Int} (h : f ≠ 0) : divides f n = .ok (decide (f ∣ n)) := by
  rw [divides, if_neg h]
  refine congrArg _ ?_
  by_cases hd : f ∣ n
  · rw [decide_eq_true hd, Int.emod_eq_zero_of_dvd hd]; rfl
  · rw [decide_eq_false hd]
    rw [beq_eq_false_iff_ne]
    exact fun h => hd (Int.dvd_of_emod_eq_zero h)

theorem modifySt_ok {f : σ → Py σ} {w : World σ} {s : σ} (h : f w.st = .ok s) :
    modifySt f w = .ok () { w with st := s } := by
  rw [modifySt, bind_of_ok (get_def w), bind_of_ok (lift_ok h _)]; rfl

theorem modifySt_error {f : σ → Py σ} {w : World σ} {e : PyErr} (h : f w.st = .error e) :
    modifySt f w = .error e w := by
  rw [modifySt, bind_of_ok (get_def w), bind_of_error (lift_error h _)]

/-- What an iteration's bookkeeping does to the world, whether it returns or raises: only a completed call
counts the iteration. -/
theorem afterIteration_any (m : Method σ τ) (w : World σ) :
    (∃ ls f, afterIteration m w = .ok () { w with it := w.it + 1, loggers := ls, file := f }) ∨
    (∃ e ls f, afterIteration m w = .error e { w with loggers := ls, file := f }) := by
  unfold afterIteration
  rw [bind_of_ok (get_def w)]
  cases h1 : logAll w.it w.st m.logs w.loggers with
  | error e => right; exact ⟨e, w.loggers, w.file, bind_of_error (lift_error rfl _)⟩
  | ok ls =>
    rw [bind_of_ok (lift_ok rfl _), bind_of_ok (set_def _ _)]
    cases h2 : divides m.freq (w.it + 1) with
    | error e => right; exact ⟨e, ls, w.file, bind_of_error (lift_error rfl _)⟩
    | ok b =>
      rw [bind_of_ok (lift_ok rfl _)]
      by_cases hb : (b && decide (0 < m.freq)) = true
      · simp only [hb, if_true]
        have hs := storeCheckpoint_same m { w with loggers := ls }
        cases h3 : storeCheckpoint m { w with loggers := ls } with
        | error e w' =>
          rw [h3] at hs
          obtain ⟨h4, h5, h6⟩ := hs
          right
          refine ⟨e, w'.loggers, w'.file, ?_⟩
          rw [bind_of_error h3]
          simp only [after] at h4 h5 h6
          rw [← h4, ← h5, ← h6]
        | ok u w' =>
          rw [h3] at hs
          obtain ⟨h4, h5, h6⟩ := hs
          left
          refine ⟨w'.loggers, w'.file, ?_⟩
          rw [bind_of_ok h3, modify_def]
          simp only [after] at h4 h5 h6
          rw [← h4, ← h5, ← h6]
      · simp only [hb]
        left
        exact ⟨ls, w.file, rfl⟩

/-- Without a positive frequency nothing is stored. -/
theorem afterIteration_noStore (m : Method σ τ) (w : World σ) (hf : m.freq ≤ 0) :
    (after (afterIteration m w)).file = w.file := by
  unfold afterIteration
  rw [bind_of_ok (get_def w)]
  cases h1 : logAll w.it w.st m.logs w.loggers with
  | error e => rw [bind_of_error (lift_error rfl _)]; rfl
  | ok ls =>
    rw [bind_of_ok (lift_ok rfl _), bind_of_ok (set_def _ _)]
    cases h2 : divides m.freq (w.it + 1) with
    | error e => rw [bind_of_error (lift_error rfl _)]; rfl
    | ok b =>
      rw [bind_of_ok (lift_ok rfl _)]
      have : decide (0 < m.freq) = false := decide_eq_false (by omega)
      simp only [this, Bool.and_false]
      rfl

/-- A run that does not fail by itself: the states after the single iterations, where no test to stop holds
before the `k`-th, the loggers can measure and the decompositions can be stored. -/
structure Trajectory (m : Method σ τ) (ss : ℕ → σ) (k : ℕ) : Prop where
  step : ∀ j < k, m.step (ss j) = .ok (ss (j + 1))
  go : ∀ j < k, m.stop (ss j) = .ok false
  log : ∀ j < k, ∀ p ∈ m.logs, ∃ v, p.2 (ss (j + 1)) = .ok v
  store : ∀ j ≤ k, ∃ g, m.storeDec (m.dec (ss j)) Group.empty = .ok g

theorem Trajectory.tail {m : Method σ τ} {ss : ℕ → σ} {k : ℕ} (h : Trajectory m ss (k + 1)) :
    Trajectory m (fun j => ss (j + 1)) k where
  step := fun j hj => h.step (j + 1) (by omega)
  go := fun j hj => h.go (j + 1) (by omega)
  log := fun j hj => h.log (j + 1) (by omega)
  store := fun j hj => h.store (j + 1) (by omega)

theorem schedule_succ (freq start : Int) (k : ℕ) (c : ℕ → τ) :
    schedule freq start (k + 1) c =
      (if 0 < freq ∧ freq ∣ start + 1 then [(start, c 1)] else []) ++
        schedule freq (start + 1) k fun j => c (j + 1) := by
  unfold schedule
  rw [List.range_succ_eq_map, List.filterMap_cons, List.filterMap_map]
  have hcongr : List.filterMap ((fun j : ℕ => if 0 < freq ∧ freq ∣ start + (j : Int) + 1 then
      some (start + (j : Int), c (j + 1)) else none) ∘ Nat.succ) (List.range k) =
      List.filterMap (fun j : ℕ => if 0 < freq ∧ freq ∣ start + 1 + (j : Int) + 1 then
        some (start + 1 + (j : Int), c (j + 1 + 1)) else none) (List.range k) := by
    refine List.filterMap_congr fun j _ => ?_
    simp only [Function.comp, Nat.succ_eq_add_one, Nat.cast_add, Nat.cast_one]
    rw [show start + ((j : Int) + 1) = start + 1 + j by ring]
  rw [hcongr]
  by_cases hd : 0 < freq ∧ freq ∣ start + 1
  · rw [if_pos hd]
    simp [hd.1, hd.2]
  · rw [if_neg hd]
    have : ¬ (0 < freq ∧ freq ∣ start + ((0 : ℕ) : Int) + 1) := by simpa using hd
    simp only [this, if_false, List.nil_append]

theorem schedule_zero (freq start : Int) (c : ℕ → τ) : schedule freq start 0 c = [] := rfl

theorem mem_schedule {freq start : Int} {k : ℕ} {c : ℕ → τ} {p : Int × τ} :
    p ∈ schedule freq start k c ↔
      ∃ j < k, 0 < freq ∧ freq ∣ start + j + 1 ∧ p = (start + (j : Int), c (j + 1)) := by
  unfold schedule
  rw [List.mem_filterMap]
  constructor
  · rintro ⟨j, hj, h⟩
    split at h
    · rename_i hd
      exact ⟨j, List.mem_range.1 hj, hd.1, hd.2, by simpa using h.symm⟩
    · cases h
  · rintro ⟨j, hj, h1, h2, rfl⟩
    exact ⟨j, List.mem_range.2 hj, by rw [if_pos ⟨h1, h2⟩]⟩

theorem logAll_ok {it : Int} {s : σ} : ∀ {ps : List (Name × (σ → Py ℝ))} (ls : List Logger),
    (∀ p ∈ ps, ∃ v, p.2 s = .ok v) → ∃ ls', logAll it s ps ls = .ok ls'
  | [], ls, _ => ⟨ls, by cases ls <;> rfl⟩
  | p :: ps, [], _ => ⟨[], rfl⟩
  | p :: ps, l :: ls, h => by
    obtain ⟨v, hv⟩ := h p (by simp)
    obtain ⟨ls', hl⟩ := logAll_ok (ps := ps) ls fun q hq => h q (by simp [hq])
    exact ⟨l.log v it :: ls', by rw [logAll, hv, bind_ok, hl, bind_ok]; rfl⟩

/-- The file conditions for storing checkpoints without failing. -/
structure Storing (m : Method σ τ) (w : World σ) (L : List (Int × τ)) : Prop where
  path : 0 < m.freq → m.hasPath = true
  cks : 0 < m.freq → CheckpointsAt m.storeDec m.writesIts w.file L
  logs : 0 < m.freq → LogsOk (w.file.getD H5File.empty) (m.logs.map Prod.fst)

/-- The bookkeeping of one iteration, when nothing fails. -/
theorem afterIteration_total (m : Method σ τ) {w : World σ} {L : List (Int × τ)} (hf : m.freq ≠ 0)
    (hS : Storing m w L) (hlog : ∀ p ∈ m.logs, ∃ v, p.2 w.st = .ok v)
    (hst : ∃ g, m.storeDec (m.dec w.st) Group.empty = .ok g)
    (hfresh : 0 < m.freq → m.freq ∣ w.it + 1 → w.it ∉ L.map Prod.fst) :
    ∃ w', afterIteration m w = .ok () w' ∧ w'.st = w.st ∧ w'.it = w.it + 1 ∧ w'.maxIts = w.maxIts ∧
      Storing m w' (L ++ if 0 < m.freq ∧ m.freq ∣ w.it + 1 then [(w.it, m.dec w.st)] else []) := by
  unfold afterIteration
  rw [bind_of_ok (get_def w)]
  obtain ⟨ls, hls⟩ := logAll_ok (it := w.it) w.loggers hlog
  rw [bind_of_ok (lift_ok hls _), bind_of_ok (set_def _ _), bind_of_ok (lift_ok (divides_ok hf) _)]
  by_cases hd : 0 < m.freq ∧ m.freq ∣ w.it + 1
  · have hb : (decide (m.freq ∣ w.it + 1) && decide (0 < m.freq)) = true := by simp [hd.1, hd.2]
    simp only [hb, if_true, if_pos hd]
    obtain ⟨g, hg⟩ := hst
    obtain ⟨ls', f, h1, h2, h3⟩ := storeCheckpoint_ok m (w := { w with loggers := ls }) (hS.path hd.1)
      (hS.cks hd.1) (hS.logs hd.1) (hfresh hd.1 hd.2) hg
    rw [bind_of_ok h1, modify_def]
    exact ⟨_, rfl, rfl, rfl, rfl, fun _ => hS.path hd.1, fun _ => h2, fun _ => h3⟩
  · have hb : (decide (m.freq ∣ w.it + 1) && decide (0 < m.freq)) = false := by
      rw [Bool.and_eq_false_iff]
      by_cases h0 : 0 < m.freq
      · left; exact decide_eq_false fun h => hd ⟨h0, h⟩
      · right; exact decide_eq_false h0
    simp only [hb, if_neg hd, List.append_nil]
    refine ⟨_, rfl, rfl, rfl, rfl, fun h => hS.path h, fun h => hS.cks h, fun h => hS.logs h⟩

/-- The loop, when nothing fails: `k` iterations, then the budget is used up or the test to stop holds. -/
theorem loop_total (m : Method σ τ) (hf : m.freq ≠ 0) : ∀ (k n i : ℕ) (last : Option ℕ) (ss : ℕ → σ)
    (w : World σ) (L : List (Int × τ)), Trajectory m ss k → w.st = ss 0 → k ≤ n →
    (k < n → m.stop (ss k) = .ok true) → Storing m w L →
    (∀ j < k, 0 < m.freq → m.freq ∣ w.it + j + 1 → w.it + j ∉ L.map Prod.fst) →
    ∃ w', loop m n i last w =
        .ok (if k < n then some (i + k) else if n = 0 then last else some (i + n - 1)) w' ∧
      w'.st = ss k ∧ w'.it = w.it + k ∧ w'.maxIts = w.maxIts ∧
      Storing m w' (L ++ schedule m.freq w.it k fun j => m.dec (ss j)) := by
  intro k
  induction k with
  | zero =>
    intro n i last ss w L hT hw hk hstop hS hfresh
    rw [schedule_zero, List.append_nil]
    cases n with
    | zero => exact ⟨w, rfl, hw, by simp, rfl, hS⟩
    | succ n =>
      refine ⟨w, ?_, hw, by simp, rfl, hS⟩
      have := hstop (by omega)
      rw [loop, bind_of_ok (get_def w), bind_of_ok (lift_ok (by rw [hw]; exact this) _)]
      simp
  | succ k ih =>
    intro n i last ss w L hT hw hk hstop hS hfresh
    obtain ⟨n, rfl⟩ : ∃ n', n = n' + 1 := ⟨n - 1, by omega⟩
    have hgo : m.stop w.st = .ok false := by rw [hw]; exact hT.go 0 (by omega)
    have hstep : m.step w.st = .ok (ss 1) := by rw [hw]; exact hT.step 0 (by omega)
    rw [loop, bind_of_ok (get_def w), bind_of_ok (lift_ok hgo _)]
    simp only [Bool.false_eq_true, if_false]
    rw [bind_of_ok (modifySt_ok hstep)]
    obtain ⟨w1, h1, h2, h3, h4, h5⟩ := afterIteration_total m (w := { w with st := ss 1 }) (L := L) hf
      ⟨hS.path, hS.cks, hS.logs⟩ (hT.log 0 (by omega)) (hT.store 1 (by omega)) (fun h h' => by
        have := hfresh 0 (by omega) h (by simpa using h')
        simpa using this)
    rw [bind_of_ok h1]
    simp only at h2 h3 h4 h5
    obtain ⟨w', g1, g2, g3, g4, g5⟩ := ih n (i + 1) (some i) (fun j => ss (j + 1)) w1 _ hT.tail h2 (by omega)
      (fun h => hstop (by omega)) h5 (by
        intro j hj h h' hmem
        rw [h3, show w.it + 1 + (j : Int) + 1 = w.it + ((j + 1 : ℕ) : Int) + 1 by push_cast; ring] at h'
        rw [h3, List.map_append, List.mem_append] at hmem
        rcases hmem with hmem | hmem
        · refine hfresh (j + 1) (by omega) h h' ?_
          rw [show w.it + ((j + 1 : ℕ) : Int) = w.it + 1 + j by push_cast; ring]
          exact hmem
        · split at hmem
          · simp at hmem; omega
          · simp at hmem)
    refine ⟨w', ?_, g2, ?_, g4.trans h4, ?_⟩
    · rw [g1]
      refine congrArg (fun r => Result.ok r w') ?_
      by_cases hkn : k < n
      · rw [if_pos hkn, if_pos (by omega)]; congr 1; omega
      · rw [if_neg hkn, if_neg (show ¬ (k + 1 < n + 1) by omega), if_neg (show ¬ (n + 1 = 0) by omega)]
        split
        · rename_i h0; rw [h0]; rfl
        · congr 1
          omega
    · rw [g3, h3]; push_cast; ring
    · rw [schedule_succ, ← List.append_assoc]
      rw [h3] at g5
      exact g5

end Loop

end
end TK
