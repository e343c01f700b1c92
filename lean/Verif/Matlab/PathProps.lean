import Verif.Matlab.PathModel

/-! # The MATLAB files that are used, and the options that reach them (C153, C154) -/

namespace Qtune.Matlab.Path

/-- **C153** (partial).  After `SpecialMeasureMatlab` has been constructed without an exception from an installation that contains its MATLAB files, MATLAB uses the files of this
installation, or files in a directory that is the same; only if the user has asked not to
overwrite the path it may use others, which it has used before.  If another qtune was found and nothing was said
about overwriting, there is a warning. -/
theorem own_files_are_used_partial (own : String) (installed : Bool) (same : String → String → Except PyErr Bool)
    (overwrite : Option Bool) (hi : installed = true) (e : Engine)
    (hok : (addQtune own installed same overwrite e).2 = .ok ()) :
    (∃ d, (addQtune own installed same overwrite e).1.find = some d ∧
      (d = own ∨ same d own = .ok true ∨ overwrite = some false ∧ e.find = some d)) ∧
    (∀ d, e.find = some d → same d own = .ok false → overwrite = none →
      (addQtune own installed same overwrite e).1.warned = e.warned + 1) := by
  subst hi
  unfold addQtune at hok ⊢
  rcases hf : e.find with _ | d
  · simp only [hf] at hok ⊢
    refine ⟨⟨own, ?_, .inl rfl⟩, by simp⟩
    simp [Engine.check, Engine.addpath, Engine.find]
  · simp only [hf] at hok ⊢
    rcases hs : same d own with x | b
    · simp [hs] at hok
    · cases b with
      | true =>
        simp only [Engine.check, hf]
        refine ⟨⟨d, rfl, .inr (.inl hs)⟩, ?_⟩
        rintro d' h h' -
        cases h
        rw [hs] at h'
        cases h'
      | false =>
        by_cases ho : overwrite = some false
        · simp only [ho, if_true]
          exact ⟨⟨d, hf, .inr (.inr ⟨trivial, rfl⟩)⟩, by simp⟩
        · simp only [ho, if_false]
          refine ⟨⟨own, by simp [Engine.check, Engine.addpath, Engine.find], .inl rfl⟩, ?_⟩
          rintro d' - - h
          simp [h, Engine.check, Engine.addpath, Engine.find]

/-- **C153**, the construction raises nothing if the directories exist and this installation contains the package. -/
theorem own_files_are_found (own : String) (same : String → String → Except PyErr Bool)
    (hs : ∀ a b, ∃ r, same a b = .ok r) (overwrite : Option Bool) (e : Engine) :
    (addQtune own true same overwrite e).2 = .ok () := by
  unfold addQtune
  rcases hf : e.find with _ | d
  · simp [Engine.check, Engine.addpath, Engine.find]
  · obtain ⟨r, hr⟩ := hs d own
    simp only [hr]
    cases r
    · by_cases ho : overwrite = some false
      · simp [ho]
      · simp [ho, Engine.check, Engine.addpath, Engine.find]
    · simp [Engine.check, hf]

/-- **C153**, nothing else is taken from the path: the other directories stay on it, in their order. -/
theorem other_directories_stay (own : String) (installed : Bool) (same : String → String → Except PyErr Bool) (overwrite : Option Bool)
    (e : Engine) (d : String → Bool) (hd : d own = false) :
    (addQtune own installed same overwrite e).1.path.filter d = e.path.filter d := by
  have hadd : ∀ e' : Engine, (e'.addpath installed own).path.filter d = e'.path.filter d := by
    intro e'
    cases installed
    · rfl
    · simp only [Engine.addpath, if_true, List.filter_cons, hd, List.filter_filter]
      simp only [Bool.false_eq_true, if_false]
      refine List.filter_congr fun x _ => ?_
      by_cases hx : x = own
      · simp [hx, hd]
      · simp [hx]
  have hcheck : ∀ e' : Engine, e'.check.1 = e' := by
    intro e'
    unfold Engine.check
    split <;> rfl
  unfold addQtune
  split
  · split
    · rfl
    · rw [hcheck]
    · split
      · rfl
      · rw [hcheck, hadd]
        split <;> rfl
  · rw [hcheck, hadd]

/-- **C153**, the failure is reported: if MATLAB finds no package qtune after the construction, a `RuntimeError` has been raised. -/
theorem not_found_is_reported (own : String) (installed : Bool) (same : String → String → Except PyErr Bool) (overwrite : Option Bool)
    (e : Engine) (hf : (addQtune own installed same overwrite e).1.find = none) :
    ∃ msg, (addQtune own installed same overwrite e).2 = .error (.runtimeError msg) := by
  have hcheck : ∀ e' : Engine, e'.check.1.find = none → ∃ msg, e'.check.2 = .error (.runtimeError msg) := by
    intro e' h
    rcases hf : e'.find with _ | d
    · simp [Engine.check, hf]
    · simp [Engine.check, hf] at h
  unfold addQtune at hf ⊢
  rcases he : e.find with _ | d
  · simp only [he] at hf ⊢
    exact hcheck _ hf
  · simp only [he] at hf ⊢
    rcases hs : same d own with x | b
    · simp [hs, he] at hf
    · simp only [hs] at hf ⊢
      cases b with
      | true => exact hcheck _ hf
      | false =>
        by_cases ho : overwrite = some false
        · simp [ho, he] at hf
        · simp only [ho, if_false] at hf ⊢
          exact hcheck _ hf

example : (addQtune "/new" false (fun a b => .ok (a == b)) none ⟨[], 0⟩).1.find = none := by
  simp [addQtune, Engine.find, Engine.addpath, Engine.check]

/-- **C153**, refuted without the package in this installation: an other qtune is found and overwriting is allowed, but
the construction ends well with the other files. -/
theorem missing_package_refuted (own d : String) (same : String → String → Except PyErr Bool)
    (hs : same d own = .ok false) (l : List String) (n : Nat) :
    (addQtune own false same (some true) ⟨d :: l, n⟩) = (⟨d :: l, n⟩, .ok ()) := by
  simp [addQtune, Engine.find, hs, Engine.addpath, Engine.check]

example : (addQtune "/new" true (fun a b => .ok (a == b)) none ⟨["/old", "/new"], 0⟩) = (⟨["/new", "/old"], 1⟩, .ok ()) := by
  simp [addQtune, Engine.find, Engine.addpath, Engine.check]

end Qtune.Matlab.Path

namespace Qtune.Matlab.Tune

/-- The value that MATLAB should get: numbers as numbers, everything else as it is. -/
inductive Means : Value → Value → Prop
  | number (x : ℝ) : Means (.number x) (.number x)
  | numpyNumber (x : ℝ) : Means (.numpyNumber x) (.number x)
  | text (s : String) : Means (.text s) (.text s)
  | other (t : Nat) : Means (.other t) (.other t)

/-- Pairs of names and values, one for each option. -/
inductive Lists : Options → List Value → Prop
  | nil : Lists [] []
  | cons {k : String} {v x : Value} {o : Options} {l : List Value} :
      Means v x → Lists o l → Lists ((k, v) :: o) (.text k :: x :: l)

/-- Options that can be passed: no complex numbers, no text of numpy. -/
def Plain (o : Options) : Prop := ∀ k v, (k, v) ∈ o → v ≠ .complex ∧ ∀ s, v ≠ .numpyText s

/-- Two dictionaries with the same keys and values of the same meaning. -/
inductive SameOptions : Options → Options → Prop
  | nil : SameOptions [] []
  | cons {k : String} {v v' x : Value} {o o' : Options} :
      Means v x → Means v' x → SameOptions o o' → SameOptions ((k, v) :: o) ((k, v') :: o')

theorem means_of_plain {v : Value} (h : v ≠ .complex ∧ ∀ s, v ≠ .numpyText s) : ∃ x, Means v x ∧ v.float = .ok x ∧ Means x x := by
  cases v with
  | number x => exact ⟨_, .number x, rfl, .number x⟩
  | complex => exact absurd rfl h.1
  | text s => exact ⟨_, .text s, rfl, .text s⟩
  | numpyNumber x => exact ⟨_, .numpyNumber x, rfl, .number x⟩
  | numpyText s => exact absurd rfl (h.2 s)
  | other t => exact ⟨_, .other t, rfl, .other t⟩

theorem convertNumpy_plain : ∀ {o : Options}, Plain o → ∃ o', convertNumpy o = (o', .ok ()) ∧ SameOptions o o' ∧ Plain o' ∧
    (∀ k v, (k, v) ∈ o' → v.numpy = false)
  | [], _ => ⟨[], rfl, .nil, by simp [Plain], by simp⟩
  | (k, v) :: o, h => by
    obtain ⟨o', h1, h2, h3, h4⟩ := convertNumpy_plain (o := o) fun k v hv => h k v (List.mem_cons_of_mem _ hv)
    have hv := h k v List.mem_cons_self
    have : ∃ v', (if v.numpy then v.toMatlab else .ok v) = .ok v' ∧ (∃ x, Means v x ∧ Means v' x) ∧
        (v' ≠ .complex ∧ ∀ s, v' ≠ .numpyText s) ∧ v'.numpy = false := by
      cases v with
      | number x => exact ⟨_, rfl, ⟨_, .number x, .number x⟩, by simp, rfl⟩
      | complex => exact absurd rfl hv.1
      | text s => exact ⟨_, rfl, ⟨_, .text s, .text s⟩, by simp, rfl⟩
      | numpyNumber x => exact ⟨_, rfl, ⟨_, .numpyNumber x, .number x⟩, by simp, rfl⟩
      | numpyText s => exact absurd rfl (hv.2 s)
      | other t => exact ⟨_, rfl, ⟨_, .other t, .other t⟩, by simp, rfl⟩
    obtain ⟨v', e1, ⟨x, m1, m2⟩, hp, hn⟩ := this
    refine ⟨(k, v') :: o', by simp only [convertNumpy, e1, h1], .cons m1 m2 h2, ?_, ?_⟩
    · intro k₁ v₁ h₁
      simp only [List.mem_cons, Prod.mk.injEq] at h₁
      rcases h₁ with ⟨rfl, rfl⟩ | h₁
      · exact hp
      · exact h3 k₁ v₁ h₁
    · intro k₁ v₁ h₁
      simp only [List.mem_cons, Prod.mk.injEq] at h₁
      rcases h₁ with ⟨rfl, rfl⟩ | h₁
      · exact hn
      · exact h4 k₁ v₁ h₁

theorem convertNumpy_idle : ∀ {o : Options}, (∀ k v, (k, v) ∈ o → v.numpy = false) → convertNumpy o = (o, .ok ())
  | [], _ => rfl
  | (k, v) :: o, h => by
    simp only [convertNumpy, h k v List.mem_cons_self, convertNumpy_idle fun k v hv => h k v (List.mem_cons_of_mem _ hv)]
    rfl

theorem pairs_plain : ∀ {o : Options}, Plain o → ∃ l, pairs o = .ok l ∧ Lists o l
  | [], _ => ⟨[], rfl, .nil⟩
  | (k, v) :: o, h => by
    obtain ⟨l, h1, h2⟩ := pairs_plain (o := o) fun k v hv => h k v (List.mem_cons_of_mem _ hv)
    obtain ⟨x, m, hx, -⟩ := means_of_plain (h k v List.mem_cons_self)
    exact ⟨_, by simp [pairs, hx, h1, bind, Except.bind], .cons m h2⟩

theorem means_same {v v' x y : Value} (h : Means v x) (h' : Means v' x) (hy : Means v' y) : Means v y := by
  cases h <;> cases h' <;> cases hy <;> constructor

theorem lists_same {o o' : Options} (h : SameOptions o o') : ∀ {l : List Value}, Lists o' l → Lists o l := by
  induction h with
  | nil => exact fun h => h
  | cons m m' _ ih =>
    intro l hl
    cases hl with
    | cons mx hl => exact .cons (means_same m m' mx) (ih hl)

theorem same_filter {o o' : Options} (h : SameOptions o o') (p : String → Bool) :
    SameOptions (o.filter fun x => p x.1) (o'.filter fun x => p x.1) := by
  induction h with
  | nil => exact .nil
  | @cons k v v' x o o' m m' _ ih =>
    simp only [List.filter_cons]
    split
    · exact .cons m m' ih
    · exact ih

theorem same_lookup {o o' : Options} (h : SameOptions o o') {k : String} {v : Value} (hv : o.lookup k = some v) :
    ∃ v' x, o'.lookup k = some v' ∧ Means v x ∧ Means v' x := by
  induction h with
  | nil => simp at hv
  | @cons k' v₁ v₁' x o o' m m' _ ih =>
    by_cases hk : k = k'
    · subst hk
      simp only [List.lookup_cons_self, Option.some.injEq] at hv ⊢
      subst hv
      exact ⟨_, _, rfl, m, m'⟩
    · have hk' : (k == k') = false := by simpa using hk
      simp only [List.lookup_cons, hk'] at hv ⊢
      exact ih hv

theorem same_any {o o' : Options} (h : SameOptions o o') (p : String → Bool) :
    (o'.any fun x => p x.1) = o.any fun x => p x.1 := by
  induction h with
  | nil => rfl
  | cons _ _ _ ih => simp only [List.any_cons, ih]

/-- **C154** (partial).  `SMTuneQQD.measure` calls `tune.tune` with the name of the measurement, its index and, for every
other option, its name followed by its value, in order.  The options of the measurement keep their
meaning, and if it is used again the same call is made. -/
theorem options_reach_tune_partial (known : List String) (name : String) (hk : name ∈ known) (o : Options) (hp : Plain o)
    (hr : ∀ k v, (k, v) ∈ o → k ≠ "measurement_name" ∧ k ≠ "self") {i : Value} {x : ℝ}
    (hi : o.lookup "index" = some i) (hx : Means i (.number x)) :
    ∃ o' l, measure known name o = (o', .ok (.text name :: .number x :: l)) ∧
      Lists (o.filter fun y => y.1 ≠ "index") l ∧ SameOptions o o' ∧
      measure known name o' = (o', .ok (.text name :: .number x :: l)) := by
  obtain ⟨o', h1, h2, h3, h4⟩ := convertNumpy_plain hp
  obtain ⟨i', y, hl, m1, m2⟩ := same_lookup h2 hi
  have hiy : i'.index = .ok (.number x) := by
    cases hx <;> cases m1 <;> cases m2 <;> rfl
  have hf := same_filter h2 fun k => decide (k ≠ "index")
  obtain ⟨l, hl1, hl2⟩ := pairs_plain (o := o'.filter fun y => decide (y.1 ≠ "index")) fun k v hv =>
    h3 k v (List.mem_filter.1 hv).1
  have hany : ((o'.filter fun y => decide (y.1 ≠ "index")).any fun y => decide (y.1 ∈ reserved)) = false := by
    rw [same_any hf fun k => decide (k ∈ reserved), List.any_eq_false]
    rintro ⟨k, v⟩ hv
    obtain ⟨hv, hne⟩ := List.mem_filter.1 hv
    have := hr k v hv
    simp only [decide_eq_true_eq] at hne
    simp [reserved, this.1, this.2, hne]
  have hcall : pytune name o' = .ok (.text name :: .number x :: l) := by
    unfold pytune tune
    simp only [hl, hany, hl1, hiy, bind, Except.bind]
    simp
  refine ⟨o', l, ?_, lists_same hf hl2, h2, ?_⟩
  · simp [measure, hk, h1, hcall]
  · simp [measure, hk, convertNumpy_idle h4, hcall]

/-- **C154**, a measurement that the program does not know raises `ValueError`, `tune.tune` is not called, and the options stay as they are. -/
theorem unknown_measurement_rejected (known : List String) (name : String) (hk : name ∉ known) (o : Options) :
    measure known name o = (o, .error .valueError) := by
  simp [measure, hk]

example : measure ["line", "lead"] "lines" [("index", .number 1)] = ([("index", .number 1)], .error .valueError) :=
  unknown_measurement_rejected _ _ (by decide) _

/-- **C154**, refuted for text of numpy: the measurement raises, options before it have been converted. -/
theorem numpy_text_refuted (known : List String) (name : String) (hk : name ∈ known) (k s : String) (x : ℝ) (o : Options) :
    measure known name (("index", .numpyNumber x) :: (k, .numpyText s) :: o) =
      (("index", .number x) :: (k, .numpyText s) :: o, .error .valueError) := by
  simp [measure, hk, convertNumpy, Value.numpy, Value.toMatlab]

/-- **C154**, refuted for an option with the name of an argument. -/
theorem reserved_option_refuted (known : List String) (name : String) (hk : name ∈ known) (x y : ℝ) :
    (measure known name [("index", .number x), ("measurement_name", .number y)]).2 = .error .typeError := by
  simp [measure, hk, convertNumpy, Value.numpy, pytune, tune, reserved, List.filter]

/-- A measurement that meets the hypotheses. -/
example : ∃ o' l, measure ["line", "lead"] "line" [("npoints", .numpyNumber 100), ("index", .number 2), ("mode", .text "fast")] =
    (o', .ok (.text "line" :: .number 2 :: l)) ∧ Lists [("npoints", .numpyNumber 100), ("mode", .text "fast")] l := by
  obtain ⟨o', l, h1, h2, -⟩ := options_reach_tune_partial ["line", "lead"] "line" (by simp)
    [("npoints", .numpyNumber 100), ("index", .number 2), ("mode", .text "fast")] (by
      intro k v h; simp at h; rcases h with ⟨-, rfl⟩ | ⟨-, rfl⟩ | ⟨-, rfl⟩ <;> simp)
    (by intro k v h; simp at h; rcases h with ⟨rfl, -⟩ | ⟨rfl, -⟩ | ⟨rfl, -⟩ <;> decide)
    (i := .number 2) (x := 2) (by rfl) (.number 2)
  exact ⟨o', l, h1, h2⟩

end Qtune.Matlab.Tune
