import Mathlib.Tactic.Tauto
import Mathlib.Data.List.Infix
import Verif.Package.InstallModel
import Verif.Package.PropsImport

/-! # C186, C187: what has to be installed, and what is installed -/

namespace Qtune.Package

theorem needs_of_mem : ∀ (m : Mod) (p : String), p ∈ packages m → Needs m p := by
  have h1 : ∀ m p, (body m).any (fun c => match c with | .ext q _ => q == p | _ => false) = true → Needs m p := by
    intro m p h
    obtain ⟨c, hc, h⟩ := List.any_eq_true.1 h
    cases c with
    | ext q ns => simp only [beq_iff_eq] at h; subst h; exact .here hc
    | _ => simp at h
  have h2 : ∀ m k p, (body m).any (fun c => match c with | .imp j => j == k | .names j _ => j == k | .sub j _ => j == k | _ => false) = true →
      Needs k p → Needs m p := by
    intro m k p h hk
    obtain ⟨c, hc, h⟩ := List.any_eq_true.1 h
    cases c with
    | imp j => simp only [beq_iff_eq] at h; subst h; exact .there (Or.inl hc) hk
    | names j ns => simp only [beq_iff_eq] at h; subst h; exact .there (Or.inr (Or.inl ⟨ns, hc⟩)) hk
    | sub j n => simp only [beq_iff_eq] at h; subst h; exact .there (Or.inr (Or.inr ⟨n, hc⟩)) hk
    | _ => simp at h
  have below : ∀ m k, (body m).any (fun c => match c with | .imp j => j == k | .names j _ => j == k | .sub j _ => j == k | _ => false) = true →
      (∀ p, p ∈ packages k → Needs k p) →
      (packages m).all (fun p => (packages k).contains p || (body m).any (fun c => match c with | .ext q _ => q == p | _ => false)) = true →
      ∀ p, p ∈ packages m → Needs m p := by
    intro m k hmk hk hall p hp
    have := List.all_eq_true.1 hall p hp
    rcases Bool.or_eq_true _ _ ▸ this with h | h
    · exact h2 m k p hmk (hk p (List.contains_iff_mem.1 h))
    · exact h1 m p h
  have all : ∀ m, (packages m).all (fun p => (body m).any (fun c => match c with | .ext q _ => q == p | _ => false)) = true →
      ∀ p, p ∈ packages m → Needs m p := fun m hall p hp => h1 m p (List.all_eq_true.1 hall p hp)
  have util := all .util (by decide +kernel)
  have mat := all .mat2py (by decide +kernel)
  have storage := below .storage .util (by decide +kernel) util (by decide +kernel)
  have experiment := below .experiment .storage (by decide +kernel) storage (by decide +kernel)
  have basic := below .basic_dqd .experiment (by decide +kernel) experiment (by decide +kernel)
  have kal := below .kalman_gradient .storage (by decide +kernel) storage (by decide +kernel)
  have grad := below .gradient .kalman_gradient (by decide +kernel) kal (by decide +kernel)
  have eva := below .evaluator .experiment (by decide +kernel) experiment (by decide +kernel)
  have sol := below .solver .gradient (by decide +kernel) grad (by decide +kernel)
  have tun := below .parameter_tuner .solver (by decide +kernel) sol (by decide +kernel)
  have aut := below .autotuner .parameter_tuner (by decide +kernel) tun (by decide +kernel)
  have his := below .history .autotuner (by decide +kernel) aut (by decide +kernel)
  have gui := below .gui .history (by decide +kernel) his (by decide +kernel)
  have sm := below .sm .evaluator (by decide +kernel) eva (by decide +kernel)
  have heu := below .kalman_heuristics .sm (by decide +kernel) sm (by decide +kernel)
  have tune : ∀ p, p ∈ packages .sm_tune_qqd → Needs .sm_tune_qqd p := by
    intro p hp
    have : p ∈ packages .history ∨ p ∈ packages .mat2py := by
      simp only [packages, List.mem_cons, List.not_mem_nil, or_false] at hp ⊢; tauto
    rcases this with h | h
    · exact h2 _ .history p (by decide +kernel) (his p h)
    · exact h2 _ .mat2py p (by decide +kernel) (mat p h)
  intro m
  exact match m with
  | .util => util
  | .storage => storage
  | .experiment => experiment
  | .kalman_gradient => kal
  | .gradient => grad
  | .solver => sol
  | .evaluator => eva
  | .parameter_tuner => tun
  | .autotuner => aut
  | .basic_dqd => basic
  | .history => his
  | .gui => gui
  | .mat2py => mat
  | .sm => sm
  | .sm_tune_qqd => tune
  | .kalman_heuristics => heu

/-- The packages that have to be installed for a module are exactly those of the table `packages`. -/
theorem needed_packages_exact (m : Mod) (p : String) : Needs m p ↔ p ∈ packages m := by
  refine ⟨fun h => ?_, needs_of_mem m p⟩
  induction h with
  | @here m p ns h =>
    have hall : ∀ m, (body m).all (fun c => match c with | .ext p _ => (packages m).contains p | _ => true) = true := by
      intro m; cases m <;> decide +kernel
    simpa only [List.contains_iff_mem] using List.all_eq_true.1 (hall m) _ h
  | @there m k p h _ ih =>
    have hall : ∀ m, (body m).all (fun c => match c with
        | .imp k => (packages k).all (packages m).contains
        | .names k _ => (packages k).all (packages m).contains
        | .sub k _ => (packages k).all (packages m).contains | _ => true) = true := by
      intro m; cases m <;> decide +kernel
    rcases h with h | ⟨ns, h⟩ | ⟨n, h⟩ <;>
    · have := List.all_eq_true.1 (hall m) _ h
      simpa only [List.contains_iff_mem] using List.all_eq_true.1 this p ih

/-- With the packages of `requirements.txt` every module can be imported in every order, except for `mat2py`, which needs MATLAB, the three that
can never be imported, and `gui` outside of IPython. -/
theorem requirements_suffice_partial (env : Env) (depth : Nat) (hd : 9 ≤ depth) (before : List Mod) (m : Mod) (hm : m ∉ broken)
    (hv : m ≠ .mat2py) (hi : m = .gui → env.ipython = true) (hr : ∀ p ∈ requirements, env.installed p = true) :
    (importM env depth m (session env depth before)).2 = none := by
  refine (import_succeeds_partial env depth hd before m hm (fun p hp => hr p ?_) hi).1
  have h : ∀ m, m ∉ broken → m ≠ .mat2py → (packages m).all requirements.contains = true := by intro m; cases m <;> decide +kernel
  simpa only [List.contains_iff_mem] using List.all_eq_true.1 (h m hm hv) p ((needed_packages_exact m p).1 hp)

/-- The packages which `setup.py` asks for do not suffice for any module, whatever was imported before: `matplotlib` is missing (for `mat2py`: the
MATLAB engine), and if the module does not fail for another reason, the import names a package that is not in the list. -/
theorem setup_packages_refuted (env : Env) (depth : Nat) (hd : 9 ≤ depth) (before : List Mod) (m : Mod)
    (hr : ∀ p, env.installed p = true ↔ p ∈ requiredPackages) :
    (importM env depth m (session env depth before)).2 ≠ none ∧
      (m ∉ broken → m ≠ .gui → (importM env depth m (session env depth before)).2 =
        some (.notInstalled (if m = .mat2py then "matlab" else "matplotlib"))) := by
  have hmiss : ∀ p, p ∉ requiredPackages → env.installed p = false := fun p hp => by
    rw [← Bool.not_eq_true, hr]; exact hp
  have only : ∀ m, m ∉ broken → m ≠ .gui → (packages m).all (fun q => requiredPackages.contains q ||
      q == (if m = .mat2py then "matlab" else "matplotlib")) = true := by intro m; cases m <;> decide +kernel
  have some1 : ∀ m, (if m = .mat2py then "matlab" else "matplotlib") ∈ packages m := by intro m; cases m <;> decide +kernel
  have hne : ∀ m : Mod, (if m = .mat2py then "matlab" else "matplotlib") ∉ requiredPackages := by intro m; cases m <;> decide +kernel
  have hfail : (importM env depth m (session env depth before)).2 ≠ none := by
    obtain ⟨_, _, h⟩ := import_in_session env depth hd before m
    rcases h with ⟨_, _, h3, _⟩ | ⟨e, h1, _⟩
    · have := h3.1 _ (needs_of_mem m _ (some1 m))
      rw [hmiss _ (hne m)] at this; simp at this
    · rw [h1]; simp
  refine ⟨hfail, fun hb hg => ?_⟩
  obtain ⟨q, hq, hn, hi⟩ := missing_package_named env depth hd before m hb (fun h => absurd h hg) _ (needs_of_mem m _ (some1 m)) (hmiss _ (hne m))
  rw [hq]
  have := List.all_eq_true.1 (only m hb hg) q ((needed_packages_exact m q).1 hn)
  simp only [Bool.or_eq_true, List.contains_iff_mem, beq_iff_eq] at this
  rcases this with h | h
  · rw [(hr q).2 h] at hi; simp at hi
  · rw [h]

theorem wild_star (s t : List Char) (h : wild t t = true) : wild ('*' :: t) (s ++ t) = true := by
  simp only [wild, if_pos]
  exact List.any_eq_true.2 ⟨t, (List.mem_tails _ _).2 (List.suffix_append s t), h⟩

/-- The Python files in the folder of the package are installed, whatever other files there are. -/
theorem python_files_installed (listing : List (List String)) (name : String) (h : [name] ∈ listing) (stem : String) (hn : name = stem ++ ".py")
    (hdot : name.toList.head? ≠ some '.') : [name] ∈ installedFiles listing := by
  refine List.mem_filter.2 ⟨h, ?_⟩
  have : wild "*.py".toList name.toList = true := by
    have := wild_star stem.toList ".py".toList (by decide)
    simpa [hn] using this
  simp only [matchPath, matchName, this, Bool.true_and, Bool.and_true, Bool.or_eq_true, Bool.true_or, bne_iff_ne, ne_eq]
  left; right; exact hdot

/-- No file in a folder of the folder `MATLAB` is installed: the pattern of `setup.py` is relative to the folder of the package and names this
folder again.  This concerns all files of the MATLAB backend. -/
theorem matlab_files_installed_refuted (listing : List (List String)) (dir name : String) : ["MATLAB", dir, name] ∉ installedFiles listing := by
  intro h
  simp [installedFiles, packageData, matchPath] at h

/-- Nothing is installed but the Python files and files in a second folder `qtune` inside of the package. -/
theorem only_python_files_installed (listing : List (List String)) (f : List String) (h : f ∈ installedFiles listing) :
    f ∈ listing ∧ ((∃ name, f = [name]) ∨ f.head? = some "qtune") := by
  obtain ⟨h1, h2⟩ := List.mem_filter.1 h
  refine ⟨h1, ?_⟩
  simp only [packageData, List.any_cons, List.any_nil, Bool.or_false, Bool.or_eq_true] at h2
  rcases h2 with h2 | h2
  · match f, h2 with
    | [name], _ => exact Or.inl ⟨name, rfl⟩
    | [], h2 => simp [matchPath] at h2
    | _ :: _ :: _, h2 => simp [matchPath] at h2
  · match f, h2 with
    | [], h2 => simp [matchPath] at h2
    | n :: ns, h2 =>
      simp only [matchPath, matchName, Bool.and_eq_true] at h2
      refine Or.inr ?_
      have : ∀ p s : List Char, '*' ∉ p → wild p s = true → p = s := by
        intro p
        induction p with
        | nil => intro s _ h; cases s with | nil => rfl | cons => simp [wild] at h
        | cons a p ih =>
          intro s hp h
          have ha : a ≠ '*' := fun h => hp (by simp [h])
          cases s with
          | nil => simp [wild, ha] at h
          | cons c s =>
            simp only [wild, if_neg ha, Bool.and_eq_true, beq_iff_eq] at h
            rw [h.1, ih s (fun h => hp (by simp [h])) h.2]
      have h3 := this _ _ (by decide) h2.1.1
      simp only [List.head?_cons, Option.some.injEq]
      exact (String.toList_inj.1 h3).symm

/-- The files of the repository: the Python files are installed, the MATLAB files are not; with the pattern `MATLAB/*/*.m` they would match. -/
example : installedFiles [["__init__.py"], ["util.py"], ["MATLAB", "+qtune", "at_diff.m"]] = [["__init__.py"], ["util.py"]] ∧
    matchPath ["MATLAB", "*", "*.m"] ["MATLAB", "+qtune", "at_diff.m"] = true := by decide +kernel

/-- With exactly the packages of setup.py the import of the tuner fails. -/
example : (importM ⟨fun p => requiredPackages.contains p, false⟩ 20 .autotuner
    (session ⟨fun p => requiredPackages.contains p, false⟩ 20 [.gui, .util])).2 = some (.notInstalled "matplotlib") :=
  (setup_packages_refuted _ 20 (by decide) _ _ (fun p => by simp)).2 (by decide) (by decide)

/-- With those of requirements.txt it does not. -/
example : (importM ⟨fun p => requirements.contains p, false⟩ 20 .autotuner
    (session ⟨fun p => requirements.contains p, false⟩ 20 [.gui, .sm])).2 = none :=
  requirements_suffice_partial _ 20 (by decide) _ _ (by decide) (by decide) (by decide) (fun p hp => by simpa using hp)

example : ["util.py"] ∈ installedFiles [["util.py"], ["MATLAB", "+qtune", "at_diff.m"]] :=
  python_files_installed _ "util.py" (by simp) "util" (by decide) (by decide)

end Qtune.Package
