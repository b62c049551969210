import Verif.Spec.Logger
import Verif.Props.Checkpoints

/-!
# Loggers: C50
-/

namespace TK
open EStateM (Result)
open Fit

noncomputable section

/-- The state of a logger with respect to a file: it has one value for each iteration, and the file holds `old`
followed by the first `prev` of them. -/
structure OneLog (f : H5File) (n : Name) (old : List Int × List ℝ) (l : Logger) : Prop where
  aligned : l.metrics.length = l.its.length
  le : l.prev ≤ l.its.length
  data : Holds f n (old.1 ++ l.its.take l.prev) (old.2 ++ l.metrics.take l.prev)

theorem OneLog.log {f : H5File} {n : Name} {old : List Int × List ℝ} {l : Logger} (h : OneLog f n old l) (v : ℝ)
    (it : Int) : OneLog f n old (l.log v it) := by
  refine ⟨by simp [Logger.log, h.aligned], by simp [Logger.log]; exact h.le.trans (Nat.le_succ _), ?_⟩
  have h1 : (l.its ++ [it]).take l.prev = l.its.take l.prev := List.take_append_of_le_length h.le
  have h2 : (l.metrics ++ [v]).take l.prev = l.metrics.take l.prev :=
    List.take_append_of_le_length (by rw [h.aligned]; exact h.le)
  show Holds f n (old.1 ++ (l.its ++ [it]).take l.prev) (old.2 ++ (l.metrics ++ [v]).take l.prev)
  rw [h1, h2]
  exact h.data

/-- A write puts everything that was logged into the file. -/
theorem OneLog.write {f : H5File} {n : Name} {old : List Int × List ℝ} {l : Logger} (h : OneLog f n old l)
    (hd : f.root.dsets.has n = false) :
    ∃ g, l.writeTo n f = .ok (l.flushed, { f with groups := f.groups.set n g }) ∧
      LogData { f with groups := f.groups.set n g } n (old.1 ++ l.its) (old.2 ++ l.metrics) ∧
      l.flushed = { l with prev := l.its.length } := by
  have hfl : l.flushed = { l with prev := l.its.length } := by
    have : l.prev + l.latestIts.length = l.its.length := by
      rw [Logger.latestIts, List.length_drop]; have := h.le; omega
    rw [Logger.flushed, this]
  have e1 : l.its.take l.prev ++ l.latestIts = l.its := List.take_append_drop _ _
  have e2 : l.metrics.take l.prev ++ l.latestMetrics = l.metrics := List.take_append_drop _ _
  rcases h.data with hh | ⟨h1, h2, h3⟩
  · obtain ⟨g, g1, g2⟩ := writeTo_old l hd hh
    refine ⟨g, g1, ?_, hfl⟩
    rw [List.append_assoc, List.append_assoc, e1, e2] at g2
    exact g2
  · obtain ⟨g, g1, g2⟩ := writeTo_new l hd h1
    refine ⟨g, g1, ?_, hfl⟩
    rw [List.append_eq_nil_iff] at h2 h3
    rw [h2.2, List.nil_append] at e1
    rw [h3.2, List.nil_append] at e2
    rw [h2.1, h3.1, List.nil_append, List.nil_append, ← e1, ← e2]
    exact g2

theorem OneLog.flush {f : H5File} {n : Name} {old : List Int × List ℝ} {l : Logger} (h : OneLog f n old l)
    {f' : H5File} (hf : LogData f' n (old.1 ++ l.its) (old.2 ++ l.metrics)) :
    OneLog f' n old { l with prev := l.its.length } := by
  refine ⟨h.aligned, le_rfl, .inl ?_⟩
  show LogData f' n (old.1 ++ l.its.take l.its.length) (old.2 ++ l.metrics.take l.its.length)
  rw [List.take_length, ← h.aligned, List.take_length]
  exact hf

theorem OneLog.congr {f f' : H5File} {n : Name} {old : List Int × List ℝ} {l : Logger} (h : OneLog f n old l)
    (hf : f'.groups.find n = f.groups.find n) : OneLog f' n old l := by
  refine ⟨h.aligned, h.le, ?_⟩
  rcases h.data with ⟨g, hg, h1, h2⟩ | ⟨h1, h2⟩
  · exact .inl ⟨g, hf.trans hg, h1, h2⟩
  · exact .inr ⟨hf.trans h1, h2⟩

/-! ## One logger -/

theorem run_noWrite (n : Name) (f : H5File) (old : List Int × List ℝ) : ∀ (ops : List LogOp) (l : Logger),
    LogOp.NoWrite ops → OneLog f n old l → ∃ l', LogOp.run n ops (l, f) = .ok (l', f) ∧ OneLog f n old l' ∧
      l'.its = l.its ++ (LogOp.entries ops).map Prod.fst ∧ l'.metrics = l.metrics ++ (LogOp.entries ops).map Prod.snd
  | [], l, _, h => ⟨l, rfl, h, by simp [LogOp.entries], by simp [LogOp.entries]⟩
  | .log v it :: ops, l, hw, h => by
    obtain ⟨l', h1, h2, h3, h4⟩ := run_noWrite n f old ops (l.log v it) (fun o ho => hw o (by simp [ho])) (h.log v it)
    refine ⟨l', h1, h2, ?_, ?_⟩
    · rw [h3]; simp [Logger.log, LogOp.entries]
    · rw [h4]; simp [Logger.log, LogOp.entries]
  | .write :: ops, l, hw, h => absurd rfl (hw .write (by simp))

theorem run_any (n : Name) (old : List Int × List ℝ) : ∀ (ops : List LogOp) (l : Logger) (f : H5File),
    f.root.dsets.has n = false → OneLog f n old l →
    ∃ l' f', LogOp.run n ops (l, f) = .ok (l', f') ∧ OneLog f' n old l' ∧ f'.root = f.root ∧
      (∀ k, k ≠ n → f'.groups.find k = f.groups.find k) ∧
      l'.its = l.its ++ (LogOp.entries ops).map Prod.fst ∧ l'.metrics = l.metrics ++ (LogOp.entries ops).map Prod.snd
  | [], l, f, _, h => ⟨l, f, rfl, h, rfl, fun _ _ => rfl, by simp [LogOp.entries], by simp [LogOp.entries]⟩
  | .log v it :: ops, l, f, hd, h => by
    obtain ⟨l', f', h1, h2, h3, h4, h5, h6⟩ := run_any n old ops (l.log v it) f hd (h.log v it)
    refine ⟨l', f', h1, h2, h3, h4, ?_, ?_⟩
    · rw [h5]; simp [Logger.log, LogOp.entries]
    · rw [h6]; simp [Logger.log, LogOp.entries]
  | .write :: ops, l, f, hd, h => by
    obtain ⟨g, g1, g2, g3⟩ := h.write hd
    obtain ⟨l', f', h1, h2, h3, h4, h5, h6⟩ := run_any n old ops { l with prev := l.its.length }
      { f with groups := f.groups.set n g } hd (h.flush g2)
    refine ⟨l', f', ?_, h2, h3, ?_, h5, h6⟩
    · rw [LogOp.run, g1, bind_ok, g3]; exact h1
    · intro k hk
      rw [h4 k hk]
      simp only [Dict.find_set_ne _ _ (Ne.symm hk)]

theorem run_append (n : Name) : ∀ (ops ops' : List LogOp) (p : Logger × H5File),
    LogOp.run n (ops ++ ops') p = (LogOp.run n ops p) >>= LogOp.run n ops'
  | [], _, _ => rfl
  | .log v it :: ops, ops', (l, f) => run_append n ops ops' (l.log v it, f)
  | .write :: ops, ops', (l, f) => by
    rw [List.cons_append, LogOp.run, LogOp.run]
    cases l.writeTo n f with
    | error e => rfl
    | ok p => rw [bind_ok, bind_ok]; exact run_append n ops ops' p

/-- C50. Any history of a new logger, with a last write: the file holds what it held before followed by exactly
the entries logged before the last write, in order, iterations and values aligned; no other group is touched,
and the logger itself has all entries. -/
theorem C50_history (n : Name) {f : H5File} (hd : f.root.dsets.has n = false) {its : List Int} {vals : List ℝ}
    (hf : Holds f n its vals) (ops post : List LogOp) (hpost : LogOp.NoWrite post) :
    ∃ l' f', LogOp.run n (ops ++ .write :: post) (Logger.new, f) = .ok (l', f') ∧
      LogData f' n (its ++ (LogOp.entries ops).map Prod.fst) (vals ++ (LogOp.entries ops).map Prod.snd) ∧
      (∀ k, k ≠ n → f'.groups.find k = f.groups.find k) ∧ f'.root = f.root ∧
      l'.its = (LogOp.entries (ops ++ post)).map Prod.fst ∧
      l'.metrics = (LogOp.entries (ops ++ post)).map Prod.snd := by
  have hent : ∀ a b : List LogOp, LogOp.entries (a ++ b) = LogOp.entries a ++ LogOp.entries b := by
    intro a b
    induction a with
    | nil => rfl
    | cons o a ih => cases o <;> simp [LogOp.entries, ih]
  have h0 : OneLog f n (its, vals) Logger.new := ⟨rfl, le_rfl, by simpa [Logger.new] using hf⟩
  obtain ⟨l1, f1, h1, h2, h3, h4, h5, h6⟩ := run_any n (its, vals) ops Logger.new f hd h0
  obtain ⟨g, g1, g2, g3⟩ := h2.write (by rw [h3]; exact hd)
  obtain ⟨l2, k1, k2, k3, k4⟩ := run_noWrite n { f1 with groups := f1.groups.set n g } (its, vals) post
    { l1 with prev := l1.its.length } hpost (h2.flush g2)
  refine ⟨l2, { f1 with groups := f1.groups.set n g }, ?_, ?_, ?_, h3, ?_, ?_⟩
  · rw [run_append, h1, bind_ok, LogOp.run, g1, bind_ok, g3]
    exact k1
  · rw [h5, h6] at g2
    simpa [Logger.new] using g2
  · intro k hk
    simp only [Dict.find_set_ne _ _ (Ne.symm hk)]
    exact h4 k hk
  · rw [k3, hent, List.map_append]
    show l1.its ++ _ = _
    rw [h5]; rfl
  · rw [k4, hent, List.map_append]
    show l1.metrics ++ _ = _
    rw [h6]; rfl

/-- C50, a history without a write does not touch the file. -/
theorem C50_no_write (n : Name) (f : H5File) (ops : List LogOp) (h : LogOp.NoWrite ops) :
    ∃ l', LogOp.run n ops (Logger.new, f) = .ok (l', f) ∧ l'.its = (LogOp.entries ops).map Prod.fst ∧
      l'.metrics = (LogOp.entries ops).map Prod.snd := by
  suffices H : ∀ (ops : List LogOp) (l : Logger), LogOp.NoWrite ops →
      ∃ l', LogOp.run n ops (l, f) = .ok (l', f) ∧ l'.its = l.its ++ (LogOp.entries ops).map Prod.fst ∧
        l'.metrics = l.metrics ++ (LogOp.entries ops).map Prod.snd by
    obtain ⟨l', h1, h2, h3⟩ := H ops Logger.new h
    exact ⟨l', h1, by rw [h2]; rfl, by rw [h3]; rfl⟩
  intro ops
  induction ops with
  | nil => exact fun l _ => ⟨l, rfl, by simp [LogOp.entries], by simp [LogOp.entries]⟩
  | cons o ops ih =>
    intro l hw
    cases o with
    | write => exact absurd rfl (hw .write (by simp))
    | log v it =>
      obtain ⟨l', h1, h2, h3⟩ := ih (l.log v it) (fun o ho => hw o (by simp [ho]))
      exact ⟨l', h1, by rw [h2]; simp [Logger.log, LogOp.entries], by rw [h3]; simp [Logger.log, LogOp.entries]⟩

/-- Two writes in one history: the second appends. -/
example : ∃ l f, LogOp.run "SSELogger".toList [.log 4 0, .log 3 1, .write, .log 2 2, .write, .log 1 3]
    (Logger.new, H5File.empty) = .ok (l, f) ∧ LogData f "SSELogger".toList [0, 1, 2] [4, 3, 2] := by
  obtain ⟨l, f, h1, h2, -⟩ := C50_history "SSELogger".toList (f := H5File.empty) rfl (its := []) (vals := [])
    (.inr ⟨rfl, rfl, rfl⟩) [.log 4 0, .log 3 1, .write, .log 2 2] [.log 1 3] (by simp [LogOp.NoWrite])
  exact ⟨l, f, h1, h2⟩

/-! ## The loggers of a decomposer -/

/-- Every logger is in order with respect to the file: name, what the file held before, and the logger. -/
def LogsAre (f : H5File) : List Name → List (List Int × List ℝ) → List Logger → Prop
  | [], [], [] => True
  | n :: ns, o :: os, l :: ls => OneLog f n o l ∧ LogsAre f ns os ls
  | _, _, _ => False

theorem LogsAre.congr {f f' : H5File} : ∀ {ns : List Name} {os : List (List Int × List ℝ)} {ls : List Logger},
    LogsAre f ns os ls → (∀ n ∈ ns, f'.groups.find n = f.groups.find n) → LogsAre f' ns os ls
  | [], [], [], _, _ => trivial
  | n :: ns, o :: os, l :: ls, h, hf =>
    ⟨h.1.congr (hf n (by simp)), LogsAre.congr h.2 fun k hk => hf k (by simp [hk])⟩
  | [], [], _ :: _, h, _ => h.elim
  | [], _ :: _, [], h, _ => h.elim
  | [], _ :: _, _ :: _, h, _ => h.elim
  | _ :: _, [], [], h, _ => h.elim
  | _ :: _, [], _ :: _, h, _ => h.elim
  | _ :: _, _ :: _, [], h, _ => h.elim

theorem LogsAre.get {f : H5File} : ∀ {ns : List Name} {os : List (List Int × List ℝ)} {ls : List Logger},
    LogsAre f ns os ls → ∀ (p : ℕ) {n o l}, ns[p]? = some n → os[p]? = some o → ls[p]? = some l → OneLog f n o l
  | [], [], [], _, p, _, _, _, h, _, _ => by simp at h
  | n :: ns, o :: os, l :: ls, h, 0, _, _, _, h1, h2, h3 => by
    simp only [List.getElem?_cons_zero, Option.some.injEq] at h1 h2 h3
    subst h1; subst h2; subst h3; exact h.1
  | n :: ns, o :: os, l :: ls, h, p + 1, _, _, _, h1, h2, h3 => LogsAre.get h.2 p (by simpa using h1) (by simpa using h2)
      (by simpa using h3)
  | [], [], _ :: _, h, _, _, _, _, _, _, _ => h.elim
  | [], _ :: _, [], h, _, _, _, _, _, _, _ => h.elim
  | [], _ :: _, _ :: _, h, _, _, _, _, _, _, _ => h.elim
  | _ :: _, [], [], h, _, _, _, _, _, _, _ => h.elim
  | _ :: _, [], _ :: _, h, _, _, _, _, _, _, _ => h.elim
  | _ :: _, _ :: _, [], h, _, _, _, _, _, _, _ => h.elim

/-- A logger that has written everything. -/
def Logger.synced (l : Logger) : Logger := { l with prev := l.its.length }

theorem writeLoggers_logs : ∀ {ns : List Name} {os : List (List Int × List ℝ)} {ls : List Logger} {f : H5File},
    LogsAre f ns os ls → ns.Nodup → (∀ n ∈ ns, f.root.dsets.has n = false) →
    ∃ f', writeLoggers ns ls f = .ok (ls.map Logger.synced, f') ∧ LogsAre f' ns os (ls.map Logger.synced) ∧
      f'.root = f.root ∧ ∀ k, k ∉ ns → f'.groups.find k = f.groups.find k
  | [], [], [], f, _, _, _ => ⟨f, rfl, trivial, rfl, fun _ _ => rfl⟩
  | n :: ns, o :: os, l :: ls, f, h, hnd, hd => by
    rw [List.nodup_cons] at hnd
    obtain ⟨g, g1, g2, g3⟩ := h.1.write (hd n (by simp))
    have hne : ∀ k ∈ ns, ({ f with groups := f.groups.set n g } : H5File).groups.find k = f.groups.find k := by
      intro k hk
      simp only [Dict.find_set_ne _ _ (fun e => hnd.1 (e ▸ hk) : n ≠ k)]
    obtain ⟨f', h1, h2, h3, h4⟩ := writeLoggers_logs (h.2.congr hne) hnd.2 (fun k hk => hd k (by simp [hk]))
    refine ⟨f', ?_, ⟨?_, h2⟩, h3, ?_⟩
    · rw [writeLoggers, g1, bind_ok]; simp only; rw [h1, bind_ok, g3]; rfl
    · exact (h.1.flush g2).congr (h4 n hnd.1)
    · intro k hk
      rw [List.mem_cons, not_or] at hk
      rw [h4 k hk.2]
      simp only [Dict.find_set_ne _ _ (Ne.symm hk.1)]
  | [], [], _ :: _, _, h, _, _ => h.elim
  | [], _ :: _, [], _, h, _, _ => h.elim
  | [], _ :: _, _ :: _, _, h, _, _ => h.elim
  | _ :: _, [], [], _, h, _, _ => h.elim
  | _ :: _, [], _ :: _, _, h, _, _ => h.elim
  | _ :: _, _ :: _, [], _, h, _, _ => h.elim

variable {σ τ : Type}

theorem logAll_logs {f : H5File} {it : Int} {s : σ} : ∀ {ps : List (Name × (σ → Py ℝ))}
    {os : List (List Int × List ℝ)} {ls ls' : List Logger}, LogsAre f (ps.map Prod.fst) os ls →
    logAll it s ps ls = .ok ls' → LogsAre f (ps.map Prod.fst) os ls'
  | [], os, ls, ls', h, e => by
    obtain rfl : ls = ls' := by cases ls <;> (injection e)
    exact h
  | p :: ps, [], _, _, h, _ => by cases ‹List Logger› <;> exact h.elim
  | p :: ps, o :: os, [], _, h, _ => h.elim
  | p :: ps, o :: os, l :: ls, ls', h, e => by
    rw [logAll] at e
    obtain ⟨v, -, e⟩ := bind_eq_ok.1 e
    obtain ⟨ls1, h1, e⟩ := bind_eq_ok.1 e
    obtain rfl := pure_eq_ok.1 e
    exact ⟨h.1.log v it, logAll_logs h.2 h1⟩

/-- The loggers of a decomposer have different class names, which do not look like checkpoints. -/
structure LogNames (m : Method σ τ) : Prop where
  nodup : (m.logs.map Prod.fst).Nodup
  names : ∀ n ∈ m.logs.map Prod.fst, ¬ "checkpoint".toList <+: n

/-- The loggers and the checkpoint file agree: the file holds `os` followed by a part of each log. -/
structure LogsIn (m : Method σ τ) (os : List (List Int × List ℝ)) (w : World σ) : Prop where
  logs : LogsAre (w.file.getD H5File.empty) (m.logs.map Prod.fst) os w.loggers
  noData : ∀ n ∈ m.logs.map Prod.fst, (w.file.getD H5File.empty).root.dsets.has n = false

theorem storeAttrs_dsets (m : Method σ τ) {it : Int} {g g' : Group} (h : storeAttrs m it g = .ok g') :
    g'.dsets = g.dsets := by
  unfold storeAttrs at h
  by_cases hw : m.writesIts = true
  · simp only [hw, if_true] at h
    by_cases hh : g.attrs.has ckItsKey = true
    · rw [if_pos hh] at h
      obtain ⟨g1, h1, h2⟩ := bind_eq_ok.1 h
      obtain ⟨l, -, h3⟩ := bind_eq_ok.1 h1
      rw [← pure_eq_ok.1 h2, ← pure_eq_ok.1 h3]; rfl
    · rw [if_neg hh] at h
      obtain ⟨g1, h1, h2⟩ := bind_eq_ok.1 h
      rw [← pure_eq_ok.1 h2, ← pure_eq_ok.1 h1]; rfl
  · simp only [hw] at h
    obtain ⟨g1, h1, h2⟩ := bind_eq_ok.1 h
    rw [← pure_eq_ok.1 h2, ← pure_eq_ok.1 h1]; rfl

theorem createGroup_spec {f f' : H5File} {k : Name} (h : f.createGroup k = .ok f') :
    f'.root = f.root ∧ ∀ n, n ≠ k → f'.groups.find n = f.groups.find n := by
  unfold H5File.createGroup at h
  split at h
  · cases h
  · obtain ⟨d, h1, h2⟩ := bind_eq_ok.1 h
    rw [← pure_eq_ok.1 h2]
    refine ⟨rfl, fun n hn => ?_⟩
    by_cases hf : f.groups.find k = none
    · rw [Dict.create_ok hf] at h1
      injection h1 with h1
      rw [← h1, Dict.find_append, Dict.find_cons, if_neg (Ne.symm hn)]
      simp
    · rw [Dict.create_error (by rw [Dict.has_eq_isSome]; exact Option.isSome_iff_ne_none.2 hf)] at h1
      cases h1

/-- A checkpoint keeps loggers and file in agreement, whether it succeeds or fails; if it succeeds, the file has
everything that was logged, and the logs themselves do not change. -/
theorem storeCheckpoint_logs (m : Method σ τ) (hm : LogNames m) {os : List (List Int × List ℝ)} {w : World σ}
    (h : LogsIn m os w) : LogsIn m os (after (storeCheckpoint m w)) ∧
      ((after (storeCheckpoint m w)).loggers = w.loggers ∨
        (after (storeCheckpoint m w)).loggers = w.loggers.map Logger.synced) ∧
      (storeCheckpoint m w = .ok () (after (storeCheckpoint m w)) →
        (after (storeCheckpoint m w)).loggers = w.loggers.map Logger.synced) := by
  unfold storeCheckpoint
  rw [bind_of_ok (get_def w)]
  by_cases hp : m.hasPath = true
  · rw [if_pos hp, bind_of_ok (set_def _ _)]
    cases h1 : storeAttrs m w.it (w.file.getD H5File.empty).root with
    | error e =>
      rw [bind_of_error (lift_error rfl _)]
      exact ⟨⟨h.logs, h.noData⟩, .inl rfl, fun h => by cases h⟩
    | ok root =>
      rw [bind_of_ok (lift_ok rfl _), bind_of_ok (set_def _ _)]
      have hroot := storeAttrs_dsets m h1
      cases h2 : ({ w.file.getD H5File.empty with root := root } : H5File).createGroup (ckName w.it) with
      | error e =>
        rw [bind_of_error (lift_error rfl _)]
        refine ⟨⟨h.logs.congr fun _ _ => rfl, fun n hn => ?_⟩, .inl rfl, fun h => by cases h⟩
        show root.dsets.has n = false
        rw [hroot]; exact h.noData n hn
      | ok f =>
        obtain ⟨c1, c2⟩ := createGroup_spec h2
        rw [bind_of_ok (lift_ok rfl _), bind_of_ok (set_def _ _)]
        have hck : ∀ n ∈ m.logs.map Prod.fst, n ≠ ckName w.it := fun n hn e => hm.names n hn (e ▸ prefix_ckName _)
        have hds : ∀ n ∈ m.logs.map Prod.fst, f.root.dsets.has n = false := by
          intro n hn
          rw [c1]; show root.dsets.has n = false
          rw [hroot]; exact h.noData n hn
        cases h3 : m.storeDec (m.dec w.st) Group.empty with
        | error e =>
          rw [bind_of_error (lift_error rfl _)]
          exact ⟨⟨h.logs.congr fun n hn => c2 n (hck n hn), hds⟩, .inl rfl, fun h => by cases h⟩
        | ok g =>
          rw [bind_of_ok (lift_ok rfl _), bind_of_ok (set_def _ _)]
          obtain ⟨f', k1, k2, k3, k4⟩ := writeLoggers_logs (f := { f with groups := f.groups.set (ckName w.it) g })
            (h.logs.congr fun n hn => by
              show (f.groups.set (ckName w.it) g).find n = _
              rw [Dict.find_set_ne _ _ (Ne.symm (hck n hn))]; exact c2 n (hck n hn)) hm.nodup hds
          rw [bind_of_ok (lift_ok k1 _)]
          refine ⟨⟨k2, fun n hn => ?_⟩, .inr rfl, fun _ => rfl⟩
          show f'.root.dsets.has n = false
          rw [k3]; exact hds n hn
  · rw [if_neg hp]; exact ⟨h, .inl rfl, fun h => by cases h⟩

theorem LogsIn.keeps_modifySt {m : Method σ τ} {os : List (List Int × List ℝ)} (f : σ → Py σ) :
    Keeps (LogsIn m os) (modifySt f) := by
  intro w h
  cases hf : f w.st with
  | ok s => rw [modifySt_ok hf]; exact ⟨h.logs, h.noData⟩
  | error e => rw [modifySt_error hf]; exact h

theorem LogsIn.keeps_afterIteration {m : Method σ τ} (hm : LogNames m) {os : List (List Int × List ℝ)} :
    Keeps (LogsIn m os) (afterIteration m) := by
  intro w h
  unfold afterIteration
  rw [bind_of_ok (get_def w)]
  cases h1 : logAll w.it w.st m.logs w.loggers with
  | error e => rw [bind_of_error (lift_error rfl _)]; exact h
  | ok ls =>
    rw [bind_of_ok (lift_ok rfl _), bind_of_ok (set_def _ _)]
    have h' : LogsIn m os { w with loggers := ls } := ⟨logAll_logs h.logs h1, h.noData⟩
    revert h'
    generalize ({ w with loggers := ls } : World σ) = w'
    intro h'
    refine Keeps.bind (P := LogsIn m os) (Keeps.lift _) (fun b => ?_) w' h'
    have hmod : Keeps (LogsIn m os) (modify fun w => { w with it := w.it + 1 } : Fit σ PUnit) :=
      fun w h => ⟨h.logs, h.noData⟩
    by_cases hb : (b && decide (0 < m.freq)) = true
    · simp only [hb, if_true]
      exact Keeps.bind (fun w h => (storeCheckpoint_logs m hm h).1) fun _ => hmod
    · simp only [hb]
      exact hmod

theorem LogsIn.keeps_loop {m : Method σ τ} (hm : LogNames m) {os : List (List Int × List ℝ)} :
    ∀ (n i : ℕ) (last : Option ℕ), Keeps (LogsIn m os) (loop m n i last)
  | 0, _, _ => Keeps.pure _
  | n + 1, i, last => by
    unfold loop
    refine Keeps.bind (fun w h => h) fun w => Keeps.bind (Keeps.lift _) fun b => ?_
    split
    · exact Keeps.pure _
    · exact Keeps.bind (keeps_modifySt _) fun _ => Keeps.bind (keeps_afterIteration hm) fun _ => keeps_loop hm n _ _

theorem LogsIn.keeps_final {m : Method σ τ} (hm : LogNames m) {os : List (List Int × List ℝ)} (last : Option ℕ) :
    Keeps (LogsIn m os) (final m last) := by
  unfold final
  refine Keeps.bind ?_ fun n => Keeps.bind (Keeps.lift _) fun b => ?_
  · split
    · split
      · exact Keeps.throw _
      · exact Keeps.pure _
    · exact Keeps.bind (fun w h => h) fun w => Keeps.pure _
  · split
    · exact fun w h => (storeCheckpoint_logs m hm h).1
    · exact Keeps.pure _

/-- C50 for a decomposer, at every end. Whatever happens in a run of a decomposer, whether it returns or raises an
exception: for every logger, the file holds what it held before followed by the first `prev` entries of the log,
iterations and values aligned. Nothing is lost, duplicated or mixed up. -/
theorem C50_run (m : Method σ τ) (hm : LogNames m) {os : List (List Int × List ℝ)} {w : World σ}
    (h : LogsIn m os w) : LogsIn m os (after (run m w)) := by
  refine Keeps.bind (P := LogsIn m os) (LogsIn.keeps_modifySt _) (fun _ => ?_) w h
  refine Keeps.bind (fun w h => h) fun w => Keeps.bind (LogsIn.keeps_loop hm _ _ _) fun last =>
    Keeps.bind (LogsIn.keeps_final hm last) fun _ => LogsIn.keeps_modifySt _

/-- C50, a successful checkpoint puts everything that was logged so far into the file. -/
theorem C50_checkpoint (m : Method σ τ) (hm : LogNames m) {os : List (List Int × List ℝ)} {w w' : World σ}
    (h : LogsIn m os w) (hs : storeCheckpoint m w = .ok () w') (p : ℕ) {n o l} (hn : (m.logs.map Prod.fst)[p]? = some n)
    (ho : os[p]? = some o) (hl : w.loggers[p]? = some l) :
    Holds (w'.file.getD H5File.empty) n (o.1 ++ l.its) (o.2 ++ l.metrics) := by
  obtain ⟨h1, -, h3⟩ := storeCheckpoint_logs m hm h
  rw [hs] at h1 h3
  have hl' : w'.loggers[p]? = some l.synced := by
    have : w'.loggers = w.loggers.map Logger.synced := h3 rfl
    rw [this, List.getElem?_map, hl]; rfl
  have := h1.logs.get p hn ho hl'
  have hd := this.data
  have ha := (h.logs.get p hn ho hl).aligned
  simp only [Logger.synced, List.take_length] at hd
  rwa [← ha, List.take_length] at hd

/-! ## The entries of the logs -/

/-- The states after the single iterations of a run that starts in state `s`. -/
def Visits (m : Method σ τ) : σ → List σ → Prop
  | _, [] => True
  | s, t :: ts => m.stop s = .ok false ∧ m.step s = .ok t ∧ Visits m t ts

/-- `l'` is `l` with one entry more for each of the states `ts`: the iteration numbers from `start` on, and what
the logger measures in these states. -/
def Extends (measure : σ → Py ℝ) (start : Int) (ts : List σ) (l l' : Logger) : Prop :=
  ∃ vals, List.Forall₂ (fun s v => measure s = .ok v) ts vals ∧
    l'.its = l.its ++ (List.range ts.length).map (fun j : ℕ => start + j) ∧ l'.metrics = l.metrics ++ vals

/-- The same for all loggers. -/
def AllExtend (m : Method σ τ) (start : Int) (ts : List σ) (ls ls' : List Logger) : Prop :=
  ls'.length = ls.length ∧ ∀ (p : ℕ) {q l}, m.logs[p]? = some q → ls[p]? = some l →
    ∃ l', ls'[p]? = some l' ∧ Extends q.2 start ts l l'

theorem Extends.synced {measure : σ → Py ℝ} {start : Int} {ts : List σ} {l l' : Logger}
    (h : Extends measure start ts l l') : Extends measure start ts l l'.synced := h

theorem AllExtend.synced {m : Method σ τ} {start : Int} {ts : List σ} {ls ls' : List Logger}
    (h : AllExtend m start ts ls ls') : AllExtend m start ts ls (ls'.map Logger.synced) := by
  refine ⟨by rw [List.length_map, h.1], fun p q l hq hl => ?_⟩
  obtain ⟨l', h1, h2⟩ := h.2 p hq hl
  exact ⟨l'.synced, by rw [List.getElem?_map, h1]; rfl, h2.synced⟩

theorem logAll_extends {it : Int} {s : σ} : ∀ {ps : List (Name × (σ → Py ℝ))} {ls ls' : List Logger},
    logAll it s ps ls = .ok ls' → ls'.length = ls.length ∧ ∀ (p : ℕ) {q l}, ps[p]? = some q → ls[p]? = some l →
      ∃ v, q.2 s = .ok v ∧ ls'[p]? = some (l.log v it)
  | [], ls, ls', e => by
    obtain rfl : ls = ls' := by cases ls <;> (injection e)
    exact ⟨rfl, fun p q l h _ => by simp at h⟩
  | p :: ps, [], ls', e => by
    injection e with e
    subst e
    exact ⟨rfl, fun p q l _ h => by simp at h⟩
  | p :: ps, l :: ls, ls', e => by
    rw [logAll] at e
    obtain ⟨v, hv, e⟩ := bind_eq_ok.1 e
    obtain ⟨ls1, h1, e⟩ := bind_eq_ok.1 e
    obtain rfl := pure_eq_ok.1 e
    obtain ⟨h2, h3⟩ := logAll_extends h1
    refine ⟨by simp [h2], fun k q l' hq hl => ?_⟩
    cases k with
    | zero =>
      simp only [List.getElem?_cons_zero, Option.some.injEq] at hq hl
      subst hq; subst hl
      exact ⟨v, hv, rfl⟩
    | succ k =>
      simp only [List.getElem?_cons_succ] at hq hl
      obtain ⟨v', g1, g2⟩ := h3 k hq hl
      exact ⟨v', g1, by simpa using g2⟩

theorem AllExtend.nil (m : Method σ τ) (start : Int) (ls : List Logger) : AllExtend m start [] ls ls :=
  ⟨rfl, fun p _ l _ hl => ⟨l, hl, [], .nil, by simp, by simp⟩⟩

theorem AllExtend.cons {m : Method σ τ} {start : Int} {t : σ} {ts : List σ} {ls ls1 ls2 : List Logger}
    (h1 : AllExtend m start [t] ls ls1) (h2 : AllExtend m (start + 1) ts ls1 ls2) :
    AllExtend m start (t :: ts) ls ls2 := by
  refine ⟨h2.1.trans h1.1, fun p q l hq hl => ?_⟩
  obtain ⟨l1, e1, v1, a1, b1, c1⟩ := h1.2 p hq hl
  obtain ⟨l2, e2, v2, a2, b2, c2⟩ := h2.2 p hq e1
  refine ⟨l2, e2, v1 ++ v2, ?_, ?_, ?_⟩
  · exact List.rel_append a1 a2
  · rw [b2, b1, List.append_assoc]
    congr 1
    simp only [List.length_cons, List.range_succ_eq_map, List.map_cons, List.map_map, List.length_nil, List.range_zero,
      List.map_nil, List.cons_append, List.nil_append]
    congr 1
    apply List.map_congr_left
    intro j _
    simp only [Function.comp]
    push_cast
    ring
  · rw [c2, c1, List.append_assoc]

theorem afterIteration_extends (m : Method σ τ) (hm : LogNames m) {os : List (List Int × List ℝ)} {w w' : World σ}
    (h : LogsIn m os w) (e : afterIteration m w = .ok () w') :
    AllExtend m w.it [w.st] w.loggers w'.loggers ∧ w'.it = w.it + 1 ∧ w'.st = w.st := by
  unfold afterIteration at e
  rw [bind_of_ok (get_def w)] at e
  cases h1 : logAll w.it w.st m.logs w.loggers with
  | error e' => rw [h1, bind_of_error (lift_error rfl _)] at e; cases e
  | ok ls =>
    rw [h1, bind_of_ok (lift_ok rfl _), bind_of_ok (set_def _ _)] at e
    have hls : AllExtend m w.it [w.st] w.loggers ls := by
      obtain ⟨g1, g2⟩ := logAll_extends h1
      refine ⟨g1, fun p q l hq hl => ?_⟩
      obtain ⟨v, hv, hl'⟩ := g2 p hq hl
      exact ⟨_, hl', [v], .cons hv .nil, by simp [Logger.log], rfl⟩
    have h' : LogsIn m os { w with loggers := ls } := ⟨logAll_logs h.logs h1, h.noData⟩
    cases h2 : divides m.freq (w.it + 1) with
    | error e' => rw [h2, bind_of_error (lift_error rfl _)] at e; cases e
    | ok b =>
      rw [h2, bind_of_ok (lift_ok rfl _)] at e
      by_cases hb : (b && decide (0 < m.freq)) = true
      · simp only [hb, if_true] at e
        have hs := storeCheckpoint_same m { w with loggers := ls }
        obtain ⟨-, -, k3⟩ := storeCheckpoint_logs m hm h'
        cases h3 : storeCheckpoint m { w with loggers := ls } with
        | error e' w1 => rw [bind_of_error h3] at e; cases e
        | ok u w1 =>
          rw [bind_of_ok h3, modify_def] at e
          rw [h3] at hs k3
          obtain ⟨s1, s2, -⟩ := hs
          simp only [after] at s1 s2
          have k3' : w1.loggers = ls.map Logger.synced := k3 rfl
          injection e with e1 e2
          rw [← e2]
          refine ⟨?_, by simp only [s2], s1⟩
          show AllExtend m w.it [w.st] w.loggers w1.loggers
          rw [k3']
          exact hls.synced
      · simp only [hb] at e
        injection e with e1 e2
        rw [← e2]
        exact ⟨hls, rfl, rfl⟩

theorem loop_extends (m : Method σ τ) (hm : LogNames m) {os : List (List Int × List ℝ)} :
    ∀ (n i : ℕ) (last r : Option ℕ) {w w' : World σ}, LogsIn m os w → loop m n i last w = .ok r w' →
      ∃ ts, Visits m w.st ts ∧ w'.it = w.it + ts.length ∧ w'.st = ts.getLastD w.st ∧
        AllExtend m w.it ts w.loggers w'.loggers
  | 0, _, _, _, w, w', _, e => by
    injection e with _ e
    subst e
    exact ⟨[], trivial, by simp, rfl, AllExtend.nil m _ _⟩
  | n + 1, i, last, r, w, w', h, e => by
    unfold loop at e
    rw [bind_of_ok (get_def w)] at e
    cases h1 : m.stop w.st with
    | error e' => rw [h1, bind_of_error (lift_error rfl _)] at e; cases e
    | ok b =>
      rw [h1, bind_of_ok (lift_ok rfl _)] at e
      cases b with
      | true =>
        simp only [if_true] at e
        injection e with _ e
        subst e
        exact ⟨[], trivial, by simp, rfl, AllExtend.nil m _ _⟩
      | false =>
        simp only [Bool.false_eq_true, if_false] at e
        cases h2 : m.step w.st with
        | error e' => rw [bind_of_error (modifySt_error h2)] at e; cases e
        | ok t =>
          rw [bind_of_ok (modifySt_ok h2)] at e
          have h' : LogsIn m os { w with st := t } := ⟨h.logs, h.noData⟩
          cases h3 : afterIteration m { w with st := t } with
          | error e' w1 => rw [bind_of_error h3] at e; cases e
          | ok u w1 =>
            rw [bind_of_ok h3] at e
            obtain ⟨k1, k2, k3⟩ := afterIteration_extends m hm h' h3
            have h4 : LogsIn m os w1 := by
              have := LogsIn.keeps_afterIteration hm _ h'
              rwa [h3] at this
            obtain ⟨ts, g1, g2, g3, g4⟩ := loop_extends m hm n (i + 1) (some i) r h4 e
            simp only at k1 k2 k3
            rw [k3] at g1 g3
            rw [k2] at g2 g4
            refine ⟨t :: ts, ⟨h1, h2, g1⟩, ?_, ?_, k1.cons g4⟩
            · rw [g2]; push_cast [List.length_cons]; ring
            · rw [g3]; exact (List.getLastD_cons ..).symm

/-- C50, the entries. A run that returns has performed iterations through the states `ts`; every logger has got
exactly one entry for each of them, in order, with the number of the iteration and the value measured after it. -/
theorem C50_entries (m : Method σ τ) (hm : LogNames m) {os : List (List Int × List ℝ)} {w w' : World σ}
    (h : LogsIn m os w) (e : run m w = .ok () w') :
    ∃ s ts, m.prepare w.st = .ok s ∧ Visits m s ts ∧ w'.it = w.it + ts.length ∧
      m.post (ts.getLastD s) = .ok w'.st ∧ AllExtend m w.it ts w.loggers w'.loggers := by
  unfold run at e
  cases h1 : m.prepare w.st with
  | error e' => rw [bind_of_error (modifySt_error h1)] at e; cases e
  | ok s =>
    rw [bind_of_ok (modifySt_ok h1), bind_of_ok (get_def _)] at e
    simp only at e
    cases h2 : loop m (w.maxIts - w.it).toNat 0 none { w with st := s } with
    | error e' w1 => rw [bind_of_error h2] at e; cases e
    | ok r w1 =>
      rw [bind_of_ok h2] at e
      have h0 : LogsIn m os { w with st := s } := ⟨h.logs, h.noData⟩
      obtain ⟨ts, g1, g2, g3, g4⟩ := loop_extends m hm _ _ _ _ h0 h2
      have h3 : LogsIn m os w1 := by
        have := LogsIn.keeps_loop hm (w.maxIts - w.it).toNat 0 none _ h0
        rwa [h2] at this
      cases h4 : final m r w1 with
      | error e' w2 => rw [bind_of_error h4] at e; cases e
      | ok u w2 =>
        rw [bind_of_ok h4] at e
        have hfin : SameRun w1 w2 ∧ (w2.loggers = w1.loggers ∨ w2.loggers = w1.loggers.map Logger.synced) := by
          have := final_same m r w1
          rw [h4] at this
          refine ⟨this, ?_⟩
          have key : ∀ N : Int, (do
              let b ← lift (divides m.freq N)
              if !b && decide (0 < m.freq) then storeCheckpoint m : Fit σ Unit) w1 = .ok () w2 →
              (w2.loggers = w1.loggers ∨ w2.loggers = w1.loggers.map Logger.synced) := by
            intro N hN
            cases h5 : divides m.freq N with
            | error e' => rw [h5, bind_of_error (lift_error rfl _)] at hN; cases hN
            | ok b =>
              rw [h5, bind_of_ok (lift_ok rfl _)] at hN
              by_cases hb : (!b && decide (0 < m.freq)) = true
              · simp only [hb, if_true] at hN
                have := (storeCheckpoint_logs m hm h3).2.1
                rw [hN] at this
                exact this
              · simp only [hb] at hN
                injection hN with _ hN
                left; rw [← hN]
          unfold final at h4
          by_cases hu : m.usesLoopVar = true
          · simp only [hu, if_true] at h4
            cases r with
            | none => cases h4
            | some i => exact key _ h4
          · simp only [hu] at h4
            exact key _ h4
        cases h5 : m.post w2.st with
        | error e' => rw [modifySt_error h5] at e; cases e
        | ok s' =>
          rw [modifySt_ok h5] at e
          injection e with _ e
          subst e
          obtain ⟨⟨f1, f2, -⟩, f4⟩ := hfin
          refine ⟨s, ts, rfl, g1, by show w2.it = _; rw [f2, g2], ?_, ?_⟩
          · rw [← g3, ← f1]; exact h5
          · show AllExtend m w.it ts w.loggers w2.loggers
            rcases f4 with f4 | f4
            · rw [f4]; exact g4
            · rw [f4]; exact g4.synced

/-! ## C75: two loggers of one class -/

/-- C75 is false of the code: two loggers of the same class share one group, which after a checkpoint holds the
log of the first followed by the log of the second. -/
theorem C75_same_class_mixed (n : Name) (l1 l2 : Logger) (h1 : l1.prev = 0) (h2 : l2.prev = 0) {f : H5File}
    (hd : f.root.dsets.has n = false) (hf : f.groups.find n = none) :
    ∃ f', writeLoggers [n, n] [l1, l2] f = .ok ([l1.flushed, l2.flushed], f') ∧
      LogData f' n (l1.its ++ l2.its) (l1.metrics ++ l2.metrics) := by
  obtain ⟨g, g1, g2⟩ := writeTo_new l1 hd hf
  obtain ⟨g', k1, k2⟩ := writeTo_old l2 (f := { f with groups := f.groups.set n g }) hd g2
  refine ⟨{ f with groups := (f.groups.set n g).set n g' }, ?_, ?_⟩
  rotate_left
  · simp only [Logger.latestIts, Logger.latestMetrics, h1, h2, List.drop_zero] at k2
    exact k2
  · rw [writeLoggers, g1, bind_ok]; simp only; rw [writeLoggers, k1, bind_ok]; rfl

/-- Two loss loggers, three iterations: the file has six entries, the iterations `0, 1, 2, 0, 1, 2`. -/
theorem C75_fails : ∃ (l : Logger) (f : H5File), l.its = [0, 1, 2] ∧
    writeLoggers ["LossLogger".toList, "LossLogger".toList] [l, l] H5File.empty = .ok ([l.flushed, l.flushed], f) ∧
    LogData f "LossLogger".toList [0, 1, 2, 0, 1, 2] [3, 2, 1, 3, 2, 1] := by
  obtain ⟨f, h1, h2⟩ := C75_same_class_mixed "LossLogger".toList ⟨[3, 2, 1], [0, 1, 2], 0⟩ ⟨[3, 2, 1], [0, 1, 2], 0⟩
    rfl rfl (f := H5File.empty) rfl rfl
  exact ⟨_, f, rfl, h1, h2⟩

/-- C75, the part that holds: with different class names every logger finds its own log in the file (`C50_run`).
(Missing: equal class names, `C75_same_class_mixed`.) -/
theorem C75_partial (m : Method σ τ) (hm : LogNames m) {os : List (List Int × List ℝ)} {w : World σ}
    (h : LogsIn m os w) (p : ℕ) {n o l} (hn : (m.logs.map Prod.fst)[p]? = some n) (ho : os[p]? = some o)
    (hl : (after (run m w)).loggers[p]? = some l) :
    Holds ((after (run m w)).file.getD H5File.empty) n (o.1 ++ l.its.take l.prev) (o.2 ++ l.metrics.take l.prev) :=
  ((C50_run m hm h).logs.get p hn ho hl).data

/-- The hypotheses of `C50_run` hold for new loggers of different classes and a new file. -/
theorem LogsIn.new (m : Method σ τ) {w : World σ} (hw : w.file = none)
    (hl : w.loggers = m.logs.map fun _ => Logger.new) :
    LogsIn m (m.logs.map fun _ => ([], [])) w := by
  refine ⟨?_, fun _ _ => by rw [hw]; rfl⟩
  rw [hw, hl]
  induction m.logs with
  | nil => trivial
  | cons q l ih => exact ⟨⟨rfl, le_rfl, .inr ⟨rfl, rfl, rfl⟩⟩, ih⟩

end
end TK
