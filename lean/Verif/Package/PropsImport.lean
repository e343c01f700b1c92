import Verif.Package.ImportLemmas

/-! # C186: the modules of the package can be imported -/

namespace Qtune.Package

theorem mem_allNames {m : Mod} {n : String} (h : n ∈ defined m) : n ∈ allNames m := by
  simp only [defined, List.mem_filterMap] at h
  obtain ⟨c, hc, hn⟩ := h
  cases c with
  | define n' =>
    simp only [Option.some.injEq] at hn
    exact List.mem_flatMap.2 ⟨_, hc, by simp [binds, hn]⟩
  | _ => simp at hn

theorem import_in_session (env : Env) (depth : Nat) (hd : 9 ≤ depth) (before : List Mod) (m : Mod) :
    ImportOk env (fun _ => False) m (session env depth before) (importM env depth m (session env depth before)) :=
  import_spec env depth m _ _ (by have := rank_lt m; omega) (fun _ h => h.elim) (session_inv env depth hd before)

/-- Whatever was imported before, successfully or not: a module other than `sm`, `sm_tune_qqd` and `kalman_heuristics` can be imported if the
packages are installed that it and the modules below it import, the module `gui` only in IPython.  Then all its functions, classes and constants
are there. -/
theorem import_succeeds_partial (env : Env) (depth : Nat) (hd : 9 ≤ depth) (before : List Mod) (m : Mod) (hm : m ∉ broken)
    (hp : ∀ p, Needs m p → env.installed p = true) (hi : m = .gui → env.ipython = true) :
    (importM env depth m (session env depth before)).2 = none ∧
      ∀ n ∈ defined m, (importM env depth m (session env depth before)).1.has m n = true := by
  obtain ⟨_, _, h⟩ := import_in_session env depth hd before m
  rcases h with ⟨h1, _, _, h4⟩ | ⟨e, _, hc⟩
  · refine ⟨h1, fun n hn => ?_⟩
    simp only [State.has, h4, Option.getD_some, List.contains_iff_mem]
    exact mem_allNames hn
  · rcases hc with ⟨p, _, h2, h3⟩ | ⟨_, h2, h3⟩ | ⟨_, h2⟩
    · rw [hp p h2] at h3; simp at h3
    · rw [hi h2] at h3; simp at h3
    · simp [good, hm] at h2

/-- The packages which the modules other than `gui`, `mat2py` and the three of `broken` need. -/
theorem needed_packages (m : Mod) (p : String) (h : Needs m p) :
    m ∉ [Mod.gui, .mat2py, .sm, .sm_tune_qqd, .kalman_heuristics] →
      p ∈ ["numpy", "pandas", "sympy", "matplotlib", "h5py", "scipy", "filterpy"] := by
  induction h with
  | @here m p ns h =>
    intro hm
    have hall : ∀ m, m ∉ [Mod.gui, .mat2py, .sm, .sm_tune_qqd, .kalman_heuristics] → (body m).all (fun c => match c with
        | .ext p _ => ["numpy", "pandas", "sympy", "matplotlib", "h5py", "scipy", "filterpy"].contains p | _ => true) = true := by
      intro m; cases m <;> decide +kernel
    have := List.all_eq_true.1 (hall m hm) _ h
    simpa only [List.contains_iff_mem] using this
  | @there m k p h _ ih =>
    intro hm
    refine ih fun hk => ?_
    have hall : ∀ m, m ∉ [Mod.gui, .mat2py, .sm, .sm_tune_qqd, .kalman_heuristics] → (body m).all (fun c => match c with
        | .imp k => !([Mod.gui, .mat2py, .sm, .sm_tune_qqd, .kalman_heuristics].contains k)
        | .names k _ => !([Mod.gui, .mat2py, .sm, .sm_tune_qqd, .kalman_heuristics].contains k)
        | .sub k _ => !([Mod.gui, .mat2py, .sm, .sm_tune_qqd, .kalman_heuristics].contains k) | _ => true) = true := by
      intro m; cases m <;> decide +kernel
    have hc : ([Mod.gui, .mat2py, .sm, .sm_tune_qqd, .kalman_heuristics].contains k) = true := List.contains_iff_mem.2 hk
    rcases h with h | ⟨ns, h⟩ | ⟨n, h⟩ <;>
    · have := List.all_eq_true.1 (hall m hm) _ h
      simp only [hc, Bool.not_true, Bool.false_eq_true] at this

/-- With these seven packages the tuning modules can be imported in every order. -/
theorem tuning_modules_import_partial (env : Env) (depth : Nat) (hd : 9 ≤ depth) (before : List Mod) (m : Mod)
    (hm : m ∉ [Mod.gui, .mat2py, .sm, .sm_tune_qqd, .kalman_heuristics])
    (hp : ∀ p ∈ ["numpy", "pandas", "sympy", "matplotlib", "h5py", "scipy", "filterpy"], env.installed p = true) :
    (importM env depth m (session env depth before)).2 = none :=
  (import_succeeds_partial env depth hd before m (fun h => hm (by revert h; cases m <;> decide))
    (fun p h => hp p (needed_packages m p h hm)) (fun h => absurd h (by rintro rfl; simp at hm))).1

/-- If a package is missing, then the import names a missing package. -/
theorem missing_package_named (env : Env) (depth : Nat) (hd : 9 ≤ depth) (before : List Mod) (m : Mod) (hm : m ∉ broken)
    (hi : m = .gui → env.ipython = true) (p : String) (hp : Needs m p) (hmiss : env.installed p = false) :
    ∃ q, (importM env depth m (session env depth before)).2 = some (.notInstalled q) ∧ Needs m q ∧ env.installed q = false := by
  obtain ⟨_, _, h⟩ := import_in_session env depth hd before m
  rcases h with ⟨_, _, h3, _⟩ | ⟨e, h1, hc⟩
  · rw [h3.1 p hp] at hmiss; simp at hmiss
  · rcases hc with ⟨q, h2, h3⟩ | ⟨_, h2, h3⟩ | ⟨_, h2⟩
    · exact ⟨q, by rw [h1, h2], h3⟩
    · rw [hi h2] at h3; simp at h3
    · simp [good, hm] at h2

/-- A module that is loaded is complete, also after imports that failed. -/
theorem loaded_modules_complete (env : Env) (depth : Nat) (hd : 9 ≤ depth) (before : List Mod) (m : Mod)
    (hl : ((session env depth before).mods m).isSome) : ∀ n ∈ defined m, (session env depth before).has m n = true := by
  obtain ⟨ns, hns⟩ := Option.isSome_iff_exists.1 hl
  obtain ⟨h1, _⟩ := session_inv env depth hd before m ns id hns
  intro n hn
  simp only [State.has, hns, Option.getD_some, List.contains_iff_mem, h1]
  exact mem_allNames hn

/-- The modules for the two setups with MATLAB and the heuristics of the Kalman filter can never be imported: even if everything is installed,
the import of the module raises `NameError`, because the annotation in sm.py:228 mentions `qtune`, which is not imported there. -/
theorem matlab_setups_import_refuted (env : Env) (depth : Nat) (hd : 9 ≤ depth) (before : List Mod) (m : Mod) (hm : m ∈ broken) :
    (importM env depth m (session env depth before)).2 ≠ none ∧
      ((∀ p, Needs m p → env.installed p = true) → (importM env depth m (session env depth before)).2 = some (.nameError "qtune")) := by
  obtain ⟨_, _, h⟩ := import_in_session env depth hd before m
  have hb : good m = false := by simpa [good] using hm
  rcases h with ⟨_, h2, _⟩ | ⟨e, h1, hc⟩
  · rw [hb] at h2; simp at h2
  · refine ⟨by rw [h1]; simp, fun hp => ?_⟩
    rcases hc with ⟨p, _, h2, h3⟩ | ⟨_, h2, _⟩ | ⟨h2, _⟩
    · rw [hp p h2] at h3; simp at h3
    · subst h2; simp [broken] at hm
    · rw [h1, h2]

/-- Outside of IPython the module of the window cannot be imported. -/
theorem gui_import_refuted (env : Env) (depth : Nat) (hd : 9 ≤ depth) (before : List Mod) (hi : env.ipython = false) :
    (importM env depth .gui (session env depth before)).2 ≠ none ∧
      ((∀ p, Needs .gui p → env.installed p = true) → (importM env depth .gui (session env depth before)).2 = some .attributeError) := by
  obtain ⟨_, _, h⟩ := import_in_session env depth hd before .gui
  rcases h with ⟨_, _, h3, _⟩ | ⟨e, h1, hc⟩
  · rw [h3.2 rfl] at hi; simp at hi
  · refine ⟨by rw [h1]; simp, fun hp => ?_⟩
    rcases hc with ⟨p, _, h2, h3⟩ | ⟨h2, _⟩ | ⟨_, h2⟩
    · rw [hp p h2] at h3; simp at h3
    · rw [h1, h2]
    · simp [good, broken] at h2

/-- With all packages, after a failed import of `sm_tune_qqd`, the tuner can be imported, and `Autotuner` is there. -/
example : (importM ⟨fun _ => true, false⟩ 20 .autotuner (session ⟨fun _ => true, false⟩ 20 [.sm_tune_qqd, .gui])).1.has .autotuner "Autotuner" = true :=
  (import_succeeds_partial _ 20 (by decide) _ _ (by decide) (fun _ _ => rfl) (by simp)).2 _ (by decide +kernel)

/-- Without `filterpy` this module cannot be imported. -/
example : ∃ q, (importM ⟨fun p => p != "filterpy", false⟩ 20 .solver (session ⟨fun p => p != "filterpy", false⟩ 20 [.util])).2 = some (.notInstalled q) ∧
    Needs .solver q ∧ (q != "filterpy") = false :=
  missing_package_named _ 20 (by decide) _ _ (by decide) (by simp) "filterpy"
    (.there (k := .gradient) (Or.inr (Or.inl ⟨["GradientEstimator"], by decide +kernel⟩)) (.there (k := .kalman_gradient) (Or.inr (Or.inl ⟨["KalmanGradient"], by decide +kernel⟩))
      (.here (ns := ["KalmanFilter"]) (by decide +kernel)))) (by decide +kernel)

example : (importM ⟨fun _ => true, true⟩ 20 .sm (session ⟨fun _ => true, true⟩ 20 [.evaluator])).2 = some (.nameError "qtune") :=
  (matlab_setups_import_refuted _ 20 (by decide) _ _ (by decide)).2 fun _ _ => rfl

end Qtune.Package
