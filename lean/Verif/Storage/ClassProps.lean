import Verif.Storage.ClassModel

/-!
# C175: stored objects are read back as objects of their class
-/

namespace Qtune.Storage.Classes

/-! ## Specification -/

/-- The name is not that of a class of the package. -/
def Foreign (name : String) : Prop := ∀ m, name ∉ classesOf m

/-- The modules that everybody imports who reads a file. -/
def core : List String := ["experiment", "evaluator", "kalman_gradient", "gradient", "solver", "parameter_tuner", "autotuner"]

/-! ## Lemmas -/

/-- The module of a class of the package. -/
def moduleOf : String → String
  | "Measurement" => "experiment"
  | "KalmanGradient" => "kalman_gradient"
  | "GradientEstimator" | "FiniteDifferencesGradientEstimator" | "KalmanGradientEstimator" | "SelfInitializingKalmanEstimator" => "gradient"
  | "Solver" | "NewtonSolver" | "NelderMeadSolver" | "ForwardingSolver" => "solver"
  | "ParameterTuner" | "SubsetTuner" | "SensingDotTuner" => "parameter_tuner"
  | "Autotuner" => "autotuner"
  | "MatlabEvaluator" => "sm"
  | "QQDMeasurement" | "SMQQDPassThru" | "QQDLine" | "QQDLead" | "QQDSensor1D" | "QQDSensor2D" | "QQDCharge" | "QQDDistTP" | "QQDResp" => "sm_tune_qqd"
  | _ => "evaluator"

theorem moduleOf_eq {m n : String} (h : n ∈ classesOf m) : moduleOf n = m := by
  unfold classesOf at h
  split at h <;> simp only [List.mem_cons, List.not_mem_nil, or_false] at h
  all_goals (first | exact h.elim | (rcases h with h | h | h | h | h | h | h | h | h | h <;> subst h <;> rfl) |
    (rcases h with h | h | h | h | h | h | h | h | h <;> subst h <;> rfl) | (rcases h with h | h | h | h <;> subst h <;> rfl) |
    (rcases h with h | h | h <;> subst h <;> rfl) | (subst h; rfl))

theorem enter_known (s : Session) (c : Cls) (n : String) : (s.enter c).known n = if n = c.name then some c else s.known n := rfl

theorem foldl_enter (m : String) : ∀ (l : List String) (s : Session),
    (l.foldl (fun s n => s.enter (.package m n)) s).known = (fun n => if n ∈ l then some (.package m n) else s.known n) ∧
    (l.foldl (fun s n => s.enter (.package m n)) s).modules = s.modules ∧ (l.foldl (fun s n => s.enter (.package m n)) s).count = s.count
  | [], s => by simp
  | a :: l, s => by
    obtain ⟨h1, h2, h3⟩ := foldl_enter m l (s.enter (.package m a))
    simp only [List.foldl_cons]
    refine ⟨?_, h2, h3⟩
    rw [h1]
    funext n
    simp only [enter_known, Cls.name, List.mem_cons]
    by_cases hl : n ∈ l
    · simp [hl]
    · by_cases ha : n = a
      · subst ha; simp [hl]
      · simp [hl, ha]

theorem execute_known (s : Session) (m n : String) :
    (s.execute m).known n = if m ∉ s.modules ∧ n ∈ classesOf m then some (.package m n) else s.known n := by
  unfold Session.execute
  split
  · next h => simp [h]
  · next h => simp [h, (foldl_enter m (classesOf m) s).1]

theorem execute_modules (s : Session) (m m' : String) : m' ∈ (s.execute m).modules ↔ m' = m ∨ m' ∈ s.modules := by
  unfold Session.execute
  split
  · next h => constructor
              · exact .inr
              · rintro (rfl | h')
                · exact h
                · exact h'
  · simp

theorem execute_count (s : Session) (m : String) : (s.execute m).count = s.count := by
  unfold Session.execute
  split
  · rfl
  · exact (foldl_enter m (classesOf m) s).2.2

/-- A property of sessions that every executed module keeps is kept by imports. -/
theorem imp_keeps {I : Session → Prop} {m : String} (h : ∀ s m', m' ∈ imports m → I s → I (s.execute m')) : ∀ s, I s → I (s.imp m) := by
  have : ∀ (l : List String) (s : Session), (∀ m' ∈ l, m' ∈ imports m) → I s → I (l.foldl Session.execute s) := by
    intro l
    induction l with
    | nil => intro s _ hs; exact hs
    | cons a l ih =>
      intro s hl hs
      exact ih _ (fun m' hm' => hl m' (by simp [hm'])) (h s a (hl a (by simp)) hs)
  exact fun s hs => this _ s (fun _ h => h) hs

theorem importAll_eq (s : Session) : s.importAll = ((((s.imp "autotuner").imp "evaluator").imp "experiment").imp "gradient").imp "solver" := by
  rw [Session.importAll, List.foldl_cons, List.foldl_cons, List.foldl_cons, List.foldl_cons, List.foldl_cons, List.foldl_nil]

theorem importAll_keeps {I : Session → Prop} (h : ∀ s, ∀ m ∈ core, I s → I (s.execute m)) {s : Session} (hs : I s) : I s.importAll := by
  rw [importAll_eq]
  have hc : ∀ m ∈ ["autotuner", "evaluator", "experiment", "gradient", "solver"], ∀ m' ∈ imports m, m' ∈ core := by decide
  refine imp_keeps (fun s m' hm' => h s m' (hc _ (by decide) m' hm')) _ (imp_keeps (fun s m' hm' => h s m' (hc _ (by decide) m' hm')) _ ?_)
  refine imp_keeps (fun s m' hm' => h s m' (hc _ (by decide) m' hm')) _ (imp_keeps (fun s m' hm' => h s m' (hc _ (by decide) m' hm')) _ ?_)
  exact imp_keeps (fun s m' hm' => h s m' (hc _ (by decide) m' hm')) _ hs

theorem imp_mono (s : Session) (m m' : String) (h : m' ∈ s.modules) : m' ∈ (s.imp m).modules :=
  imp_keeps (I := fun s => m' ∈ s.modules) (fun s a _ hs => (execute_modules s a m').2 (.inr hs)) s h

theorem imp_loads (s : Session) (m : String) : ∀ m' ∈ imports m, m' ∈ (s.imp m).modules := by
  have mono : ∀ (l : List String) (s : Session) (m' : String), m' ∈ s.modules → m' ∈ (l.foldl Session.execute s).modules := by
    intro l
    induction l with
    | nil => intro s m' h; exact h
    | cons a l ih => intro s m' h; exact ih _ _ ((execute_modules s a m').2 (.inr h))
  have : ∀ (l : List String) (s : Session), ∀ m' ∈ l, m' ∈ (l.foldl Session.execute s).modules := by
    intro l
    induction l with
    | nil => intro s m' h; cases h
    | cons a l ih =>
      intro s m' h
      rcases List.mem_cons.1 h with rfl | h
      · exact mono l _ _ ((execute_modules s m' m').2 (.inl rfl))
      · exact ih _ m' h
  exact this _ s

theorem importAll_core (s : Session) : ∀ m ∈ core, m ∈ s.importAll.modules := by
  intro m hm
  rw [importAll_eq]
  refine imp_mono _ _ _ (imp_mono _ _ _ (imp_mono _ _ _ (imp_mono _ _ _ (imp_loads s "autotuner" m ?_))))
  revert m; decide

attribute [local irreducible] Session.importAll

theorem load_session (s : Session) (t : String) : (s.load t).1 = s.importAll := rfl

/-- Any invariant of definitions and executed modules holds after each session. -/
theorem run_keeps {I : Session → Prop} {acts : List Act} (hd : ∀ s n b, .define n b ∈ acts → I s → I (s.define n b).1)
    (hm : ∀ s m, .imp m ∈ acts → I s → I (s.imp m)) (hc : ∀ s, ∀ m ∈ core, I s → I (s.execute m)) : ∀ s, I s → I (s.run acts) := by
  induction acts with
  | nil => intro s hs; exact hs
  | cons a acts ih =>
    intro s hs
    have he : s.run (a :: acts) = (s.step a).run acts := by rw [Session.run, List.foldl_cons]; rfl
    rw [he]
    refine ih (fun s n b h => hd s n b (by simp [h])) (fun s m h => hm s m (by simp [h])) (s.step a) ?_
    cases a with
    | define n b => rw [Session.step]; exact hd s n b (by simp) hs
    | imp m => rw [Session.step]; exact hm s m (by simp) hs
    | load t => rw [Session.step, load_session]; exact importAll_keeps hc hs

theorem run_append (s : Session) (as bs : List Act) : s.run (as ++ bs) = (s.run as).run bs := by
  simp [Session.run]

/-! ## C175 -/

/-- **C175** (partial: not if a class of the same name is defined later): classes of the user.  After a successful definition of a class whose
name is not used by the package, instances can be stored, and are read back as instances of this class, whatever is imported, loaded or
defined in between, as long as no class of the same name is. -/
theorem user_class_read_back_partial (s : Session) (name : String) (hname : Foreign name) (hdict : name ≠ "dict") (c : Cls)
    (hc : (s.define name true).2 = .ok c) (acts : List Act) (hacts : ∀ b, .define name b ∉ acts) :
    ((s.define name true).1.run acts).store c = .ok name ∧ (((s.define name true).1.run acts).load name).2 = .inst c := by
  have hcn : c = .user s.count name := by simpa [Session.define] using hc.symm
  have hexec : ∀ (s : Session) (m : String), s.known name = some c → (s.execute m).known name = some c := by
    intro s m h; rw [execute_known, if_neg (by simp [hname m]), h]
  have h0 : (s.define name true).1.known name = some c := by rw [hcn]; simp [Session.define, Session.enter, Cls.name]
  have hk : ((s.define name true).1.run acts).known name = some c := by
    refine run_keeps (I := fun s => s.known name = some c) ?_ ?_ (fun s m _ => hexec s m) _ h0
    · intro s n b hb h
      have hne : name ≠ n := by rintro rfl; exact hacts b hb
      simp [Session.define, Session.enter, Cls.name, hne, h]
    · intro s m _ h
      exact imp_keeps (I := fun s => s.known name = some c) (fun s m' _ => hexec s m') s h
  refine ⟨by simp [Session.store, hcn, Cls.name, hk], ?_⟩
  have := importAll_keeps (I := fun s => s.known name = some c) (fun s m _ => hexec s m) hk
  simp [Session.load, hdict, this]

/-- **C175** (partial: not for the classes of `sm` and `sm_tune_qqd` if these are not imported): classes of the package.  In every session in
which the classes of the user have other names, stored instances of the classes of autotuner, tuners, solvers, gradients, evaluators and
measurements are read back as instances of these classes, whether or not the modules were imported; those of other modules if the module
was imported. -/
theorem package_class_read_back_partial (acts : List Act) (hacts : ∀ n b, .define n b ∈ acts → Foreign n) (m n : String)
    (hn : n ∈ classesOf m) (hm : m ∈ core ∨ ∃ k, .imp k ∈ acts ∧ m ∈ imports k) :
    ((Session.new.run acts).load n).2 = .inst (.package m n) := by
  let I : Session → Prop := fun s => ∀ m ∈ s.modules, ∀ n ∈ classesOf m, s.known n = some (.package m n)
  have hexec : ∀ s m, I s → I (s.execute m) := by
    intro s m h m' hm' n hn
    rw [execute_known]
    by_cases hmm : m' ∈ s.modules
    · rw [if_neg, h m' hmm n hn]
      rintro ⟨h1, h2⟩
      rw [← moduleOf_eq hn, moduleOf_eq h2] at hmm
      exact h1 hmm
    · rcases (execute_modules s m m').1 hm' with rfl | h'
      · rw [if_pos ⟨hmm, hn⟩]
      · exact absurd h' hmm
  have himp : ∀ s m, I s → I (s.imp m) := fun s m hs => imp_keeps (fun s m' _ => hexec s m') s hs
  have hdef : ∀ s n b, .define n b ∈ acts → I s → I (s.define n b).1 := by
    intro s n b hb h m' hm' n' hn'
    have hne : n' ≠ n := by rintro rfl; exact hacts n' b hb m' hn'
    have h' := h m' hm' n' hn'
    simp [Session.define, Session.enter, Cls.name, hne, h']
  have h0 : I Session.new := by intro m hm; cases hm
  have hI : I (Session.new.run acts) := run_keeps hdef (fun s m _ => himp s m) (fun s m _ => hexec s m) _ h0
  have hload : I (Session.new.run acts).importAll := importAll_keeps (fun s m _ => hexec s m) hI
  have hmem : m ∈ (Session.new.run acts).importAll.modules := by
    rcases hm with hm | ⟨k, hk, hmk⟩
    · exact importAll_core _ m hm
    · have hJ : ∀ (acts : List Act) (s : Session), m ∈ s.modules → m ∈ (s.run acts).modules := fun acts s hs =>
        run_keeps (I := fun s => m ∈ s.modules) (fun s n b _ h => h) (fun s m' _ h => imp_mono s m' m h)
          (fun s m' _ h => (execute_modules s m' m).2 (.inr h)) s hs
      obtain ⟨as, bs, rfl⟩ := List.append_of_mem hk
      refine importAll_keeps (I := fun s => m ∈ s.modules) (fun s m' _ h => (execute_modules s m' m).2 (.inr h)) ?_
      rw [run_append]
      exact hJ bs _ (imp_loads _ k m hmk)
  have hkn := hload m hmem n hn
  have hnd : n ≠ "dict" := by
    rintro rfl
    have := moduleOf_eq hn
    subst this
    revert hn; decide
  simp [Session.load, hnd, hkn]

/-- **C175** refuted: if `qtune.sm_tune_qqd` was not imported, the evaluators and measurements of quadruple dots are read back as `None`; there is
only a warning. -/
theorem quadruple_dot_class_lost_refuted (acts : List Act) (n : String) (hn : n ∈ classesOf "sm_tune_qqd") (hacts : ∀ b, .define n b ∉ acts)
    (himp : .imp "sm_tune_qqd" ∉ acts) : ((Session.new.run acts).load n).2 = .nothing := by
  have hother : ∀ m, m ≠ "sm_tune_qqd" → n ∉ classesOf m := fun m hm h => hm ((moduleOf_eq h).symm.trans (moduleOf_eq hn))
  have hexec : ∀ (s : Session) (m : String), m ≠ "sm_tune_qqd" → s.known n = none → (s.execute m).known n = none := by
    intro s m hm h; rw [execute_known, if_neg (by simp [hother m hm]), h]
  have hcore : ∀ m ∈ core, m ≠ "sm_tune_qqd" := by decide
  have hnot : ∀ m, m ≠ "sm_tune_qqd" → ∀ m' ∈ imports m, m' ≠ "sm_tune_qqd" := by
    intro m hm m' hm'
    unfold imports at hm'
    split at hm'
    all_goals first | (revert m'; decide) | skip
    · exact absurd rfl hm
    · rw [List.mem_singleton.1 hm']; exact hm
  have hk : (Session.new.run acts).known n = none := by
    refine run_keeps (I := fun s => s.known n = none) ?_ ?_ (fun s m hm => hexec s m (hcore m hm)) _ rfl
    · intro s n' b hb h
      have hne : n ≠ n' := by rintro rfl; exact hacts b hb
      simp [Session.define, Session.enter, Cls.name, hne, h]
    · intro s m hm h
      have hne : m ≠ "sm_tune_qqd" := by rintro rfl; exact himp hm
      exact imp_keeps (I := fun s => s.known n = none) (fun s m' hm' => hexec s m' (hnot m hne m' hm')) s h
  have := importAll_keeps (I := fun s => s.known n = none) (fun s m hm => hexec s m (hcore m hm)) hk
  have h1 : n ≠ "dict" ∧ n ≠ "list" ∧ n ≠ "tuple" := by
    clear hother hexec hk this hacts
    revert n; decide
  simp [Session.load, h1.1, h1.2.1, h1.2.2, this]

/-- **C175** refuted: a definition that fails, because the class has no method `to_hdf5` of its own, replaces a class of the same name all the
same.  The name in the program still belongs to the old class, but stored instances of the old class are read back as instances of the
class that could not be defined. -/
theorem failed_definition_refuted (acts : List Act) (name : String) (hname : Foreign name) (hdict : name ≠ "dict") (c : Cls)
    (hc : ((Session.new.run acts).define name true).2 = .ok c) (acts' : List Act) :
    let s := ((Session.new.run acts).define name true).1.run acts'
    (s.define name false).2 = .error .attributeError ∧
    (s.define name false).1.store c = .ok name ∧
    ∃ c', ((s.define name false).1.load name).2 = .inst c' ∧ c' ≠ c := by
  intro s
  have hcn : c = .user (Session.new.run acts).count name := by simpa [Session.define] using hc.symm
  have hcount : (Session.new.run acts).count < s.count := by
    refine run_keeps (I := fun s => (Session.new.run acts).count < s.count) ?_ ?_ ?_ _ (Nat.lt_succ_self _)
    · intro s n b _ h; exact Nat.lt_succ_of_lt h
    · intro s m _ h
      exact imp_keeps (I := fun s => (Session.new.run acts).count < s.count) (fun s m' _ h => by rw [execute_count]; exact h) s h
    · intro s m _ h; rw [execute_count]; exact h
  refine ⟨rfl, ?_, .user s.count name, ?_, ?_⟩
  · simp [Session.store, hcn, Cls.name, Session.define, Session.enter]
  · have hexec : ∀ (t : Session) (m : String), t.known name = some (.user s.count name) → (t.execute m).known name = some (.user s.count name) := by
      intro t m h; rw [execute_known, if_neg (by simp [hname m]), h]
    have h0 : (s.define name false).1.known name = some (.user s.count name) := by simp [Session.define, Session.enter, Cls.name]
    have := importAll_keeps (I := fun t => t.known name = some (.user s.count name)) (fun t m _ => hexec t m) h0
    simp [Session.load, hdict, this]
  · rw [hcn]
    intro h
    have := (Cls.user.inj h).1
    omega

/-- The classes of objects that a user stores, with their modules. -/
def storedClasses : List (String × String) :=
  [("experiment", "Measurement"), ("evaluator", "Evaluator"), ("evaluator", "FittingEvaluator"),
   ("evaluator", "LeadTunnelTimePrefitVersion"), ("evaluator", "LeadTunnelTimeByLeadScan"), ("evaluator", "InterDotTCByLineScan"),
   ("evaluator", "NewLoadTime"), ("evaluator", "LeadTransition"), ("evaluator", "SensingDot1D"), ("evaluator", "SensingDot2D"),
   ("evaluator", "AveragingEvaluator"), ("kalman_gradient", "KalmanGradient"), ("gradient", "GradientEstimator"),
   ("gradient", "FiniteDifferencesGradientEstimator"), ("gradient", "KalmanGradientEstimator"),
   ("gradient", "SelfInitializingKalmanEstimator"), ("solver", "Solver"), ("solver", "NewtonSolver"), ("solver", "NelderMeadSolver"),
   ("solver", "ForwardingSolver"), ("parameter_tuner", "ParameterTuner"), ("parameter_tuner", "SubsetTuner"),
   ("parameter_tuner", "SensingDotTuner"), ("autotuner", "Autotuner")]

/-- **C175**, the classes by their names (partial: not those of `sm` and `sm_tune_qqd`): each of them is read back as the class of this name
in its module, in every session in which the classes of the user have other names. -/
theorem stored_classes_read_back_partial (acts : List Act) (hacts : ∀ n b, .define n b ∈ acts → Foreign n) :
    ∀ c ∈ storedClasses, ((Session.new.run acts).load c.2).2 = .inst (.package c.1 c.2) := by
  intro c hc
  have h : ∀ c ∈ storedClasses, c.2 ∈ classesOf c.1 ∧ c.1 ∈ core := by decide
  exact package_class_read_back_partial acts hacts c.1 c.2 (h c hc).1 (.inl (h c hc).2)

/-! ## Examples -/

theorem foreign_example : Foreign "MyEvaluator" := by
  intro m h
  have := moduleOf_eq h
  subst this
  revert h; decide

/-- A class of the user among imports and other definitions. -/
example : ((((Session.new.imp "evaluator").define "MyEvaluator" true).1.run [.define "Other" false, .imp "gui", .load "Autotuner"]).load
    "MyEvaluator").2 = .inst (.user 0 "MyEvaluator") :=
  (user_class_read_back_partial (Session.new.imp "evaluator") "MyEvaluator" foreign_example (by decide) _ rfl
    [.define "Other" false, .imp "gui", .load "Autotuner"] (by simp)).2

/-- A class of the package in a session that has imported nothing. -/
example : ((Session.new.run [.define "MyEvaluator" true]).load "NewtonSolver").2 = .inst (.package "solver" "NewtonSolver") :=
  package_class_read_back_partial _ (by intro n b h; simp at h; rw [h.1]; exact foreign_example) "solver" "NewtonSolver" (by decide) (.inl (by decide))

/-- A class of quadruple dots with and without its module. -/
example : ((Session.new.run [.imp "history"]).load "QQDLine").2 = .nothing ∧
    ((Session.new.run [.imp "sm_tune_qqd"]).load "QQDLine").2 = .inst (.package "sm_tune_qqd" "QQDLine") :=
  ⟨quadruple_dot_class_lost_refuted _ "QQDLine" (by decide) (by simp) (by simp),
    package_class_read_back_partial _ (by simp) "sm_tune_qqd" "QQDLine" (by decide) (.inr ⟨"sm_tune_qqd", by simp, by decide⟩)⟩

/-- A definition that fails. -/
example : ∃ c', (((((Session.new.define "MyEvaluator" true).1).define "MyEvaluator" false).1.load "MyEvaluator").2 = .inst c' ∧
    c' ≠ .user 0 "MyEvaluator") :=
  (failed_definition_refuted [] "MyEvaluator" foreign_example (by decide) _ rfl []).2.2

end Qtune.Storage.Classes
