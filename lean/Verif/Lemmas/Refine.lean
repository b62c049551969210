import Verif.Lemmas.Decomposer

/-!
# Refinement of fit loops

Two methods over different states, related by a relation that all steps preserve: whenever the fit of the abstract method
returns, the fit of the concrete one returns as well, with the same checkpoint file, loggers and iteration numbers, and in
a related state.
-/

namespace TK
open EStateM (Result)

noncomputable section

namespace Fit
variable {σ σ' τ α α' β β' : Type}

/-- Worlds that agree except for their numerical states, which are related. -/
structure WRel (R : σ' → σ → Prop) (w' : World σ') (w : World σ) : Prop where
  st : R w'.st w.st
  it : w'.it = w.it
  maxIts : w'.maxIts = w.maxIts
  loggers : w'.loggers = w.loggers
  file : w'.file = w.file

/-- If `x` returns from a world, `x'` returns from every related world, with related results. -/
def Sim (R R1 : σ' → σ → Prop) (Q : α' → α → Prop) (x' : Fit σ' α') (x : Fit σ α) : Prop :=
  ∀ w' w, WRel R w' w → ∀ a v, x w = .ok a v → ∃ a' v', x' w' = .ok a' v' ∧ WRel R1 v' v ∧ Q a' a

/-- The steps of one method are steps of another one. -/
structure Refines (R : σ' → σ → Prop) (m' : Method σ' τ) (m : Method σ τ) : Prop where
  dec : ∀ {p s}, R p s → m'.dec p = m.dec s
  stop : ∀ {p s b}, R p s → m.stop s = .ok b → m'.stop p = .ok b
  prepare : ∀ {p s s1}, R p s → m.prepare s = .ok s1 → ∃ p1, m'.prepare p = .ok p1 ∧ R p1 s1
  step : ∀ {p s s1}, R p s → m.step s = .ok s1 → ∃ p1, m'.step p = .ok p1 ∧ R p1 s1
  post : ∀ {p s s1}, R p s → m.post s = .ok s1 → ∃ p1, m'.post p = .ok p1 ∧ R p1 s1
  initRest : ∀ {p s s1}, R p s → m.initRest s = .ok s1 → ∃ p1, m'.initRest p = .ok p1 ∧ R p1 s1
  logs : List.Forall₂ (fun l' l => l'.1 = l.1 ∧ ∀ p s v, R p s → l.2 s = .ok v → l'.2 p = .ok v) m'.logs m.logs
  storeDec : m'.storeDec = m.storeDec
  freq : m'.freq = m.freq
  hasPath : m'.hasPath = m.hasPath
  typeName : m'.typeName = m.typeName
  usesLoopVar : m'.usesLoopVar = m.usesLoopVar
  writesIts : m'.writesIts = m.writesIts

theorem ok_of_bind {x : Fit σ α} {f : α → Fit σ β} {w v : World σ} {b : β} (h : (x >>= f) w = .ok b v) :
    ∃ a w1, x w = .ok a w1 ∧ f a w1 = .ok b v := by
  rw [bind_def] at h
  cases hx : x w with
  | ok a w1 => rw [hx] at h; exact ⟨a, w1, rfl, h⟩
  | error e w1 => rw [hx] at h; cases h

section
variable {R R1 R2 : σ' → σ → Prop}

theorem Sim.bind {Q : α' → α → Prop} {Q2 : β' → β → Prop} {x' : Fit σ' α'} {x : Fit σ α} {f' : α' → Fit σ' β'}
    {f : α → Fit σ β} (hx : Sim R R1 Q x' x) (hf : ∀ a' a, Q a' a → Sim R1 R2 Q2 (f' a') (f a)) :
    Sim R R2 Q2 (x' >>= f') (x >>= f) := by
  intro w' w hw b v h
  obtain ⟨a, w1, h1, h2⟩ := ok_of_bind h
  obtain ⟨a', w1', e1, hr, hq⟩ := hx w' w hw a w1 h1
  obtain ⟨b', v', e2, hr2, hq2⟩ := hf a' a hq w1' w1 hr b v h2
  exact ⟨b', v', by rw [bind_of_ok e1]; exact e2, hr2, hq2⟩

theorem Sim.pure {Q : α' → α → Prop} {a' : α'} {a : α} (h : Q a' a) :
    Sim R R Q (Pure.pure a' : Fit σ' α') (Pure.pure a : Fit σ α) := by
  intro w' w hw b v e
  rw [pure_def] at e
  injection e with e1 e2
  subst e1 e2
  exact ⟨a', w', rfl, hw, h⟩

theorem Sim.throw {Q : α' → α → Prop} {e : PyErr} {x' : Fit σ' α'} :
    Sim R R1 Q x' (MonadExcept.throw e : Fit σ α) := by
  intro w' w _ b v h
  rw [show (MonadExcept.throw e : Fit σ α) w = .error e w from rfl] at h
  cases h

theorem Sim.get : Sim R R (WRel R) (MonadState.get : Fit σ' (World σ')) (MonadState.get : Fit σ (World σ)) := by
  intro w' w hw b v h
  rw [get_def] at h
  injection h with h1 h2
  subst h1 h2
  exact ⟨w', w', rfl, hw, hw⟩

theorem Sim.set {v' : World σ'} {v : World σ} (h : WRel R1 v' v) :
    Sim R R1 (fun _ _ => True) (set v' : Fit σ' PUnit) (set v : Fit σ PUnit) := by
  intro w' w _ b u e
  rw [set_def] at e
  injection e with e1 e2
  subst e2
  exact ⟨(), v', rfl, h, trivial⟩

theorem Sim.modify {f' : World σ' → World σ'} {f : World σ → World σ}
    (h : ∀ w' w, WRel R w' w → WRel R1 (f' w') (f w)) :
    Sim R R1 (fun _ _ => True) (modify f' : Fit σ' PUnit) (modify f : Fit σ PUnit) := by
  intro w' w hw b u e
  rw [modify_def] at e
  injection e with e1 e2
  subst e2
  exact ⟨(), _, rfl, h _ _ hw, trivial⟩

theorem Sim.lift {Q : α' → α → Prop} {x' : Py α'} {x : Py α} (h : ∀ a, x = .ok a → ∃ a', x' = .ok a' ∧ Q a' a) :
    Sim R R Q (Fit.lift x' : Fit σ' α') (Fit.lift x : Fit σ α) := by
  intro w' w hw b v e
  cases hx : x with
  | error err => rw [lift_error hx] at e; cases e
  | ok a =>
    rw [lift_ok hx] at e
    injection e with e1 e2
    subst e1 e2
    obtain ⟨a', ha', hq⟩ := h a hx
    exact ⟨a', w', lift_ok ha' _, hw, hq⟩

theorem Sim.liftSame {x : Py α} : Sim R R Eq (Fit.lift x : Fit σ' α) (Fit.lift x : Fit σ α) :=
  Sim.lift fun a h => ⟨a, h, rfl⟩

theorem Sim.modifySt {f' : σ' → Py σ'} {f : σ → Py σ}
    (h : ∀ {p s s1}, R p s → f s = .ok s1 → ∃ p1, f' p = .ok p1 ∧ R1 p1 s1) :
    Sim R R1 (fun _ _ => True) (Fit.modifySt f') (Fit.modifySt f) := by
  intro w' w hw b v e
  cases hf : f w.st with
  | error err => rw [modifySt_error hf] at e; cases e
  | ok s1 =>
    rw [modifySt_ok hf] at e
    injection e with e1 e2
    subst e2
    obtain ⟨p1, hp, hr⟩ := h hw.st hf
    exact ⟨(), { w' with st := p1 }, modifySt_ok hp, ⟨hr, hw.it, hw.maxIts, hw.loggers, hw.file⟩, trivial⟩

theorem Sim.imp {Q Q' : α' → α → Prop} {x' : Fit σ' α'} {x : Fit σ α} (h : Sim R R1 Q x' x)
    (hq : ∀ a' a, Q a' a → Q' a' a) : Sim R R1 Q' x' x := by
  intro w' w hw a v e
  obtain ⟨a', v', h1, h2, h3⟩ := h w' w hw a v e
  exact ⟨a', v', h1, h2, hq _ _ h3⟩

end

variable {R : σ' → σ → Prop} {m' : Method σ' τ} {m : Method σ τ}

theorem storeAttrs_eq (H : Refines R m' m) (it : Int) (g : Group) : storeAttrs m' it g = storeAttrs m it g := by
  unfold storeAttrs
  rw [H.writesIts, H.typeName]

theorem logNames_eq (H : Refines R m' m) : m'.logs.map Prod.fst = m.logs.map Prod.fst := by
  have := H.logs
  generalize m'.logs = l' at this
  generalize m.logs = l at this
  induction this with
  | nil => rfl
  | cons h _ ih => rw [List.map_cons, List.map_cons, h.1, ih]

theorem storeCheckpoint_sim (H : Refines R m' m) :
    Sim R R (fun _ _ => True) (storeCheckpoint m') (storeCheckpoint m) := by
  unfold storeCheckpoint
  refine Sim.bind Sim.get fun w' w hw => ?_
  rw [H.hasPath]
  split
  · rw [hw.file, hw.it]
    refine Sim.bind (Sim.set (R1 := R) ⟨hw.st, rfl, hw.maxIts, hw.loggers, rfl⟩) fun _ _ _ => ?_
    rw [storeAttrs_eq H]
    refine Sim.bind Sim.liftSame fun r' r hr => ?_
    subst hr
    refine Sim.bind (Sim.set (R1 := R) ⟨hw.st, rfl, hw.maxIts, hw.loggers, rfl⟩) fun _ _ _ => ?_
    refine Sim.bind Sim.liftSame fun f' f hf => ?_
    subst hf
    refine Sim.bind (Sim.set (R1 := R) ⟨hw.st, rfl, hw.maxIts, hw.loggers, rfl⟩) fun _ _ _ => ?_
    rw [H.dec hw.st, H.storeDec]
    refine Sim.bind Sim.liftSame fun g' g hg => ?_
    subst hg
    refine Sim.bind (Sim.set (R1 := R) ⟨hw.st, rfl, hw.maxIts, hw.loggers, rfl⟩) fun _ _ _ => ?_
    rw [logNames_eq H, hw.loggers]
    refine Sim.bind Sim.liftSame fun q' q hq => ?_
    subst hq
    exact Sim.set ⟨hw.st, rfl, hw.maxIts, rfl, rfl⟩
  · exact Sim.throw

theorem logAll_refines {l' : List (Name × (σ' → Py ℝ))} {l : List (Name × (σ → Py ℝ))}
    (h : List.Forall₂ (fun l' l => l'.1 = l.1 ∧ ∀ p s v, R p s → l.2 s = .ok v → l'.2 p = .ok v) l' l) {p : σ'} {s : σ}
    (hR : R p s) (it : Int) : ∀ {ls r : List Logger}, logAll it s l ls = .ok r → logAll it p l' ls = .ok r := by
  induction h with
  | nil => intro ls r e; simpa [logAll] using e
  | cons h0 _ ih =>
    intro ls r e
    cases ls with
    | nil => simpa [logAll] using e
    | cons a ls =>
      rw [logAll] at e ⊢
      simp only [bind_eq_ok] at e
      obtain ⟨v, hv, r1, hr1, hr⟩ := e
      rw [h0.2 p s v hR hv, bind_ok, ih hr1, bind_ok]
      exact hr

theorem afterIteration_sim (H : Refines R m' m) :
    Sim R R (fun _ _ => True) (afterIteration m') (afterIteration m) := by
  unfold afterIteration
  refine Sim.bind Sim.get fun w' w hw => ?_
  rw [hw.it, hw.loggers, H.freq]
  refine Sim.bind (Q := Eq) (Sim.lift fun a ha => ⟨a, logAll_refines H.logs hw.st _ ha, rfl⟩) fun ls' ls h => ?_
  subst h
  refine Sim.bind (Sim.set (R1 := R) ⟨hw.st, rfl, hw.maxIts, rfl, hw.file⟩) fun _ _ _ => ?_
  refine Sim.bind Sim.liftSame fun b' b h => ?_
  subst h
  have hend : Sim R R (fun _ _ => True) (modify fun w => { w with it := w.it + 1 } : Fit σ' PUnit)
      (modify fun w => { w with it := w.it + 1 } : Fit σ PUnit) :=
    Sim.modify fun w' w hw => ⟨hw.st, by simp [hw.it], hw.maxIts, hw.loggers, hw.file⟩
  split
  · refine Sim.bind (storeCheckpoint_sim H) fun _ _ _ => ?_
    exact hend
  · exact hend

theorem loop_sim (H : Refines R m' m) : ∀ (n i : ℕ) (last : Option ℕ), Sim R R Eq (loop m' n i last) (loop m n i last)
  | 0, _, last => Sim.pure rfl
  | n + 1, i, last => by
    rw [loop, loop]
    refine Sim.bind Sim.get fun w' w hw => ?_
    refine Sim.bind (Q := Eq) (Sim.lift fun b hb => ⟨b, H.stop hw.st hb, rfl⟩) fun b' b hb => ?_
    subst hb
    split
    · exact Sim.pure rfl
    · exact Sim.bind (Sim.modifySt H.step) fun _ _ _ => Sim.bind (afterIteration_sim H) fun _ _ _ =>
        loop_sim H n (i + 1) (some i)

theorem final_sim (H : Refines R m' m) (last : Option ℕ) :
    Sim R R (fun _ _ => True) (final m' last) (final m last) := by
  unfold final
  rw [H.usesLoopVar, H.freq]
  refine Sim.bind (R1 := R) (Q := Eq) ?_ fun n' n hn => ?_
  · split
    · cases last with
      | none => exact Sim.throw
      | some i => exact Sim.pure rfl
    · exact Sim.bind Sim.get fun w' w hw => Sim.pure (by rw [hw.it])
  · subst hn
    refine Sim.bind Sim.liftSame fun b' b hb => ?_
    subst hb
    split
    · exact storeCheckpoint_sim H
    · exact Sim.pure trivial

/-- Whenever `_fit` of the abstract method returns, so does that of the concrete one. -/
theorem run_sim (H : Refines R m' m) : Sim R R (fun _ _ => True) (run m') (run m) := by
  unfold run
  refine Sim.bind (Sim.modifySt H.prepare) fun _ _ _ => Sim.bind Sim.get fun w' w hw => ?_
  rw [hw.it, hw.maxIts]
  refine Sim.bind (loop_sim H _ _ _) fun l' l hl => ?_
  subst hl
  exact Sim.bind (final_sim H _) fun _ _ _ => Sim.modifySt H.post

theorem setMaxIts_sim (R : σ' → σ → Prop) (mi : Option Int) :
    Sim R R (fun _ _ => True) (setMaxIts mi : Fit σ' Unit) (setMaxIts mi : Fit σ Unit) := by
  cases mi with
  | none => exact Sim.pure trivial
  | some n => exact Sim.modify fun w' w hw => ⟨hw.st, hw.it, rfl, hw.loggers, hw.file⟩

/-- Whenever `fit` of the abstract method returns, so does that of the concrete one. `R00` relates the objects before the
fit, `R0` those after `set_target`. -/
theorem fit_sim {R00 R0 : σ' → σ → Prop} (H : Refines R m' m) {t' : σ' → Py σ'} {t : σ → Py σ}
    (ht : ∀ {p s s1}, R00 p s → t s = .ok s1 → ∃ p1, t' p = .ok p1 ∧ R0 p1 s1) {i' : Fit σ' Unit} {i : Fit σ Unit}
    (hi : Sim R0 R (fun _ _ => True) i' i) (mi : Option Int) :
    Sim R00 R (fun _ _ => True) (fit m' t' i' mi) (fit m t i mi) := by
  unfold fit initFit
  refine Sim.bind (R1 := R) (Q := fun _ _ => True) ?_ fun _ _ _ => run_sim H
  refine Sim.bind (Sim.modify (R1 := R00) fun w' w hw => ⟨hw.st, rfl, hw.maxIts, hw.loggers, hw.file⟩) fun _ _ _ => ?_
  refine Sim.bind (Sim.modifySt ht) fun _ _ _ => ?_
  refine Sim.bind hi fun _ _ _ => ?_
  exact Sim.bind (setMaxIts_sim R mi) fun _ _ _ => Sim.modifySt H.initRest

theorem continueFit_sim (H : Refines R m' m) (mi : Option Int) :
    Sim R R (fun _ _ => True) (continueFit m' mi) (continueFit m mi) := by
  unfold continueFit
  exact Sim.bind (setMaxIts_sim R mi) fun _ _ _ => run_sim H

end Fit
end
end TK
