import Verif.Target.Props

/-! # Properties of target tables (C36, C37) -/

namespace Qtune.TargetOps

open Qtune.Tuner

/-! ## C36 -/

/-- What the caller gave for parameter `l`: a number counts for all parameters, a series for
the parameters it lists; NaN means that nothing was given. -/
def Arg.given (a : Arg) (l : String) : Val :=
  match a with
  | .scalar x => x
  | .series s => s.val l

/-- The argument is a series. -/
def Arg.IsSeries : Arg → Prop
  | .series _ => True
  | .scalar _ => False

theorem toSeries_ok {a : Arg} {names : List String} {s : Series}
    (h : a.toSeries names = .ok s) : ∀ l ∈ names, s.val l = a.given l := by
  intro l hl
  cases a with
  | scalar x =>
    simp only [Arg.toSeries, Except.ok.injEq] at h
    subst h
    rw [Series.val_map_mk]; simp [hl, Arg.given]
  | series s₀ =>
    rw [Series.select_ok h, Series.val_map_mk]; simp [hl, Arg.given]

/-- **C36 (provable part).** The table made by `make_target` has one row for each name in the
index of the first series among `desired`, `maximum`, `minimum`, `tolerance`, in this order.
The entries of the row are those given for the parameter, NaN where nothing was given; the
rescaling factor is 1 if none was given at all, and the given one otherwise.
Missing: the factor is NaN, not 1, for a parameter that a series of rescaling factors leaves
out, see `make_target_rescaling_refuted`. -/
theorem make_target_table_partial (desired maximum minimum tolerance cost rescaling : Arg)
    (T : Target) (h : makeTarget desired maximum minimum tolerance cost rescaling = .ok T) :
    ∃ s pre, (∃ post, [desired, maximum, minimum, tolerance] = pre ++ .series s :: post) ∧
      (∀ a ∈ pre, ¬ a.IsSeries) ∧ T.names = s.index ∧
      ∀ r ∈ T, r.desired = desired.given r.name ∧ r.minimum = minimum.given r.name ∧
        r.maximum = maximum.given r.name ∧ r.tolerance = tolerance.given r.name ∧
        r.costThreshold = cost.given r.name ∧
        (rescaling = .scalar none → r.rescaling = some 1) ∧
        (rescaling ≠ .scalar none → r.rescaling = rescaling.given r.name) := by
  unfold makeTarget at h
  split at h
  · cases h
  · rename_i names hnames
    have hfirst : ∀ l : List Arg, firstNames l = some names → ∃ s pre,
        (∃ post, l = pre ++ .series s :: post) ∧ (∀ a ∈ pre, ¬ a.IsSeries) ∧ names = s.index := by
      intro l
      induction l with
      | nil => intro h; cases h
      | cons a t ih =>
        intro h
        cases a with
        | series s => exact ⟨s, [], ⟨t, rfl⟩, by simp, (Option.some.inj h).symm⟩
        | scalar x =>
          obtain ⟨s, pre, ⟨post, hl⟩, hpre, hn⟩ := ih h
          refine ⟨s, .scalar x :: pre, ⟨post, by rw [hl]; rfl⟩, ?_, hn⟩
          intro a ha
          rcases List.mem_cons.1 ha with rfl | ha
          · simp [Arg.IsSeries]
          · exact hpre a ha
    obtain ⟨s, pre, hpost, hpre, hs⟩ := hfirst _ hnames
    refine ⟨s, pre, hpost, hpre, ?_⟩
    simp only [bind, Except.bind] at h
    split at h
    · cases h
    rename_i d hd
    split at h
    · cases h
    rename_i mi hmi
    split at h
    · cases h
    rename_i ma hma
    split at h
    · cases h
    rename_i t ht
    split at h
    · cases h
    rename_i c hc
    split at h
    · cases h
    rename_i rs hrs
    simp only [Except.ok.injEq] at h
    subst h
    constructor
    · simp [Target.names, Function.comp_def, hs]
    · intro r hr
      obtain ⟨l, hl, rfl⟩ := List.mem_map.1 hr
      refine ⟨toSeries_ok hd l hl, toSeries_ok hmi l hl, toSeries_ok hma l hl, toSeries_ok ht l hl,
        toSeries_ok hc l hl, ?_, ?_⟩
      · rintro rfl
        have := toSeries_ok hrs l hl
        simpa [Arg.orOne, Arg.given] using this
      · intro hne
        have := toSeries_ok hrs l hl
        have horOne : rescaling.orOne = rescaling := by
          unfold Arg.orOne
          split
          · exact absurd rfl hne
          · rfl
        rw [horOne] at this
        exact this

theorem firstNames_none (l : List Arg) : firstNames l = none ↔ ∀ a ∈ l, ¬ a.IsSeries := by
  induction l with
  | nil => simp [firstNames]
  | cons a t ih =>
    cases a with
    | series s => simp [firstNames, Arg.IsSeries]
    | scalar x => simp [firstNames, Arg.IsSeries, ih]

/-- **C36, errors.** `make_target` raises `RuntimeError` exactly if none of the four columns
that determine the names is a series. -/
theorem make_target_error (desired maximum minimum tolerance cost rescaling : Arg) :
    makeTarget desired maximum minimum tolerance cost rescaling =
        .error (.runtimeError "Could not extract values names from arguments") ↔
      ∀ a ∈ [desired, maximum, minimum, tolerance], ¬ a.IsSeries := by
  rw [← firstNames_none]
  unfold makeTarget
  constructor
  · intro h
    split at h
    · assumption
    · exfalso
      have hsel : ∀ (s : Series) (l : List String) (m : String),
          s.select l ≠ .error (.runtimeError m) := by
        intro s l m h; unfold Series.select at h; split at h <;> cases h
      have hto : ∀ (a : Arg) (l : List String) (m : String),
          a.toSeries l ≠ .error (.runtimeError m) := by
        intro a l m h
        cases a with
        | scalar x => cases h
        | series s => exact hsel _ _ _ h
      simp only [bind, Except.bind] at h
      repeat' split at h
      all_goals first
        | (rename_i hh; simp only [Except.error.injEq] at h; subst h; exact hto _ _ _ hh)
        | (cases h; done)
  · intro h
    rw [h]

/-- **C36 refuted for the rescaling factor**, for every table: if a series of rescaling factors is given, the
factor of every parameter that it leaves out is NaN, not 1. -/
theorem make_target_rescaling_refuted (desired maximum minimum tolerance cost : Arg) (factors : Series)
    (T : Target) (h : makeTarget desired maximum minimum tolerance cost (.series factors) = .ok T) :
    ∀ r ∈ T, r.name ∉ factors.index → r.rescaling = none := by
  obtain ⟨s, pre, -, -, -, hr⟩ := make_target_table_partial _ _ _ _ _ _ T h
  intro r hmem hno
  rw [(hr r hmem).2.2.2.2.2.2 (by simp)]
  show factors.val r.name = none
  unfold Series.val
  have : factors.lookup r.name = none := by
    rw [List.lookup_eq_none_iff]
    intro p hp
    simp only [bne_iff_ne, ne_eq]
    intro he
    exact hno (by rw [he]; exact List.mem_map_of_mem hp)
  simp [this]

/-- A rescaling factor is given for `a` only; `b` has no factor. -/
example : ∃ T, makeTarget (.series [("a", some 0), ("b", some 0)]) (.scalar none) (.scalar none)
        (.scalar none) (.scalar none) (.series [("a", some 2)]) = .ok T ∧
      ∃ r ∈ T, r.name = "b" ∧ r.rescaling = none := by
  refine ⟨_, rfl, ⟨"b", some 0, none, none, none, none, none⟩, ?_, rfl, rfl⟩
  simp [Series.index, Series.val, List.lookup]

/-- Consequence: every measurement of such a parameter becomes NaN by rescaling. -/
theorem nan_factor_spoils_value (T : Target) (l : String) (values : Series) (r : Row)
    (hr : T.row? l = some r) (hnan : r.rescaling = none) :
    (rescaleValues T values).val l = none := by
  unfold rescaleValues Series.val
  rw [lookup_map_entry values (fun l x => Val.div x (factor T l))]
  cases values.lookup l with
  | none => rfl
  | some x => simp [factor, hr, hnan]

/-- Set points and tolerances for two parameters. -/
example : ∃ T, makeTarget (.series [("a", some 1), ("b", none)]) (.scalar none) (.scalar none)
    (.series [("a", some 2)]) (.scalar none) (.scalar none) = .ok T ∧
    T.names = ["a", "b"] ∧ (∃ r ∈ T, r.name = "b" ∧ r.desired = none ∧ r.rescaling = some 1) := by
  refine ⟨_, rfl, ?_, ⟨"b", none, none, none, none, none, some 1⟩, ?_, rfl, rfl, rfl⟩
  · simp [Target.names, Series.index]
  · simp [Series.index, Series.val, List.lookup]

/-! ## C37 -/

theorem Column.get_set_self (c : Column) (x : Val) (r : Row) : c.get (c.set x r) = x := by
  cases c <;> rfl

theorem Column.get_set_ne {c c' : Column} (h : c ≠ c') (x : Val) (r : Row) :
    c.get (c'.set x r) = c.get r := by
  cases c <;> cases c' <;> first | exact absurd rfl h | rfl

theorem Column.set_name (c : Column) (x : Val) (r : Row) : (c.set x r).name = r.name := by
  cases c <;> rfl

theorem changeColumn_ok {T T' : Target} {c : Column} {s : Series}
    (h : changeColumn T c s = .ok T') :
    T'.names = T.names ∧ List.Forall₂ (fun r r' : Row => r'.name = r.name ∧
      (∀ c', c' ≠ c → c'.get r' = c'.get r) ∧
      (r.name ∈ s.index → c.get r' = s.val r.name) ∧
      (r.name ∉ s.index → c.get r' = c.get r)) T T' := by
  unfold changeColumn at h
  split at h
  · simp only [Except.ok.injEq] at h
    subst h
    constructor
    · simp only [Target.names, List.map_map]
      refine List.map_congr_left fun r _ => ?_
      simp only [Function.comp]
      split
      · exact Column.set_name _ _ _
      · rfl
    · rw [List.forall₂_map_right_iff, List.forall₂_same]
      intro r _
      by_cases hr : r.name ∈ s.index
      · rw [if_pos (by simpa using hr)]
        exact ⟨Column.set_name _ _ _, fun c' hc' => Column.get_set_ne hc' _ _,
          fun _ => Column.get_set_self _ _ _, fun h => absurd hr h⟩
      · rw [if_neg (by simpa using hr)]
        exact ⟨rfl, fun _ _ => rfl, fun h => absurd h hr, fun _ => rfl⟩
  · cases h

theorem forall₂_comp {α : Type} {R S Q : α → α → Prop} {a b c : List α}
    (h₁ : List.Forall₂ R a b) (h₂ : List.Forall₂ S b c)
    (h : ∀ x y z, R x y → S y z → Q x z) : List.Forall₂ Q a c := by
  induction h₁ generalizing c with
  | nil => cases h₂; exact .nil
  | cons hr _ ih =>
    cases h₂ with
    | cons hs ht => exact .cons (h _ _ _ hr hs) (ih ht)

/-- **C37.** Assigning changes to `solver.target` – at most one series per category – that only
name parameters of the target succeeds, keeps the rows, and gives exactly the named entries
of the named categories their new values; every other entry is unchanged. -/
theorem target_change_exact (T : Target) (changes : List (Column × Series))
    (hcat : (changes.map Prod.fst).Nodup)
    (hlab : ∀ e ∈ changes, ∀ l ∈ e.2.index, l ∈ T.names) :
    ∃ T', changeTarget T changes = (T', .ok ()) ∧ T'.names = T.names ∧
      List.Forall₂ (fun r r' : Row => r'.name = r.name ∧
        (∀ c s, (c, s) ∈ changes → r.name ∈ s.index → c.get r' = s.val r.name) ∧
        (∀ c, (∀ s, (c, s) ∈ changes → r.name ∉ s.index) → c.get r' = c.get r)) T T' := by
  induction changes generalizing T with
  | nil =>
    refine ⟨T, rfl, rfl, ?_⟩
    rw [List.forall₂_same]
    intro r _
    exact ⟨rfl, by simp, fun _ _ => rfl⟩
  | cons e rest ih =>
    obtain ⟨c, s⟩ := e
    have hok : ∃ T₁, changeColumn T c s = .ok T₁ := by
      unfold changeColumn
      rw [if_pos]
      · exact ⟨_, rfl⟩
      · rw [List.all_eq_true]
        intro e he
        simpa using hlab (c, s) (by simp) e.1 (List.mem_map_of_mem he)
    obtain ⟨T₁, hT₁⟩ := hok
    obtain ⟨hn₁, hf₁⟩ := changeColumn_ok hT₁
    simp only [List.map_cons, List.nodup_cons] at hcat
    obtain ⟨T', hT', hn', hf'⟩ := ih T₁ hcat.2
      (fun e he l hl => hn₁ ▸ hlab e (List.mem_cons_of_mem _ he) l hl)
    refine ⟨T', by simp [changeTarget, hT₁, hT'], hn'.trans hn₁, ?_⟩
    refine forall₂_comp hf₁ hf' ?_
    rintro x y z ⟨hxy, hother, hset, hkeep⟩ ⟨hyz, hset', hkeep'⟩
    have hnot : ∀ s', (c, s') ∉ rest := fun s' h =>
      hcat.1 (List.mem_map.2 ⟨(c, s'), h, rfl⟩)
    refine ⟨hyz.trans hxy, ?_, ?_⟩
    · intro c' s' hmem hl
      rcases List.mem_cons.1 hmem with h | h
      · cases h
        rw [hkeep' c (fun s' h => absurd h (hnot s')), hset hl]
      · rw [hset' c' s' h (hxy ▸ hl), hxy]
    · intro c' hno
      by_cases hc : c' = c
      · subst hc
        rw [hkeep' c' (fun s' h => absurd h (hnot s')), hkeep (hno s (by simp))]
      · rw [hkeep' c' (fun s' h => hxy ▸ hno s' (List.mem_cons_of_mem _ h)), hother c' hc]

/-- **C37 for the hierarchy.** `change_targets` with consistent changes for the first tuners
changes the target of tuner `i` by the `i`-th changes and leaves the targets of the
remaining tuners as they are. -/
theorem targets_change_exact (Ts : List Target) (cs : List (List (Column × Series)))
    (hlen : cs.length ≤ Ts.length)
    (hok : ∀ i (hi : i < cs.length), (changeTarget (Ts[i]'(by omega)) cs[i]).2 = .ok ()) :
    ∃ Ts', changeTargets Ts cs = (Ts', .ok ()) ∧ ∃ hl : Ts'.length = Ts.length,
      (∀ i (hi : i < cs.length),
        Ts'[i]'(by omega) = (changeTarget (Ts[i]'(by omega)) cs[i]).1) ∧
      (∀ i (hi : i < Ts.length), cs.length ≤ i → Ts'[i]'(by omega) = Ts[i]) := by
  rw [changeTargets, if_pos hlen]
  induction cs generalizing Ts with
  | nil => exact ⟨Ts, by simp [changeEach], rfl, by simp, by simp⟩
  | cons c cs ih =>
    cases Ts with
    | nil => simp at hlen
    | cons T Ts =>
      obtain ⟨Ts', h, hl, h1, h2⟩ := ih Ts (by simpa using hlen) (by
        intro i hi
        have := hok (i + 1) (by simpa using hi)
        simpa using this)
      have h0 := hok 0 (by simp)
      simp only [List.getElem_cons_zero] at h0
      refine ⟨(changeTarget T c).1 :: Ts', ?_, by simp [hl], ?_, ?_⟩
      · rw [changeEach]
        rcases hct : changeTarget T c with ⟨T', res⟩
        rw [hct] at h0
        simp only at h0
        subst h0
        simp [h]
      · intro i hi
        cases i with
        | zero => simp
        | succ i => simpa using h1 i (by simpa using hi)
      · intro i hi hge
        cases i with
        | zero => simp at hge
        | succ i => simpa using h2 i (by simpa using hi) (by simpa using hge)

/-- **C37**: changes for more tuners than there are, are refused, and nothing is changed. -/
theorem targets_change_too_many (Ts : List Target) (cs : List (List (Column × Series)))
    (hlen : Ts.length < cs.length) : changeTargets Ts cs = (Ts, .error .assertionError) := by
  rw [changeTargets, if_neg (by omega)]

/-- **C37**: if the changes of tuner `i` are refused, `change_targets` raises the same error; the tuners before it have
their new targets, the tuners after it keep their targets. -/
theorem targets_change_stops (Ts : List Target) (cs : List (List (Column × Series))) (hlen : cs.length ≤ Ts.length)
    (i : Nat) (hi : i < cs.length) (e : PyErr)
    (hok : ∀ j (hj : j < i), (changeTarget (Ts[j]'(by omega)) (cs[j]'(by omega))).2 = .ok ())
    (herr : (changeTarget (Ts[i]'(by omega)) cs[i]).2 = .error e) :
    ∃ Ts', changeTargets Ts cs = (Ts', .error e) ∧ ∃ hl : Ts'.length = Ts.length,
      (∀ j (hj : j ≤ i), Ts'[j]'(by omega) = (changeTarget (Ts[j]'(by omega)) (cs[j]'(by omega))).1) ∧
      (∀ j (hj : j < Ts.length), i < j → Ts'[j]'(by omega) = Ts[j]) := by
  rw [changeTargets, if_pos hlen]
  induction cs generalizing Ts i with
  | nil => simp at hi
  | cons c cs ih =>
    cases Ts with
    | nil => simp at hlen
    | cons T Ts =>
      cases i with
      | zero =>
        simp only [List.getElem_cons_zero] at herr
        refine ⟨(changeTarget T c).1 :: Ts, ?_, rfl, ?_, ?_⟩
        · rw [changeEach]
          rcases hct : changeTarget T c with ⟨T', res⟩
          rw [hct] at herr
          simp only at herr
          subst herr
          rfl
        · intro j hj
          obtain rfl : j = 0 := by omega
          rfl
        · intro j hj hlt
          cases j with
          | zero => omega
          | succ j => rfl
      | succ i =>
        have h0 := hok 0 (by omega)
        simp only [List.getElem_cons_zero] at h0
        obtain ⟨Ts', h, hl, h1, h2⟩ := ih Ts (by simpa using hlen) i (by simpa using hi) (by
          intro j hj
          have := hok (j + 1) (by omega)
          simpa using this) (by simpa using herr)
        refine ⟨(changeTarget T c).1 :: Ts', ?_, by simp [hl], ?_, ?_⟩
        · rw [changeEach]
          rcases hct : changeTarget T c with ⟨T', res⟩
          rw [hct] at h0
          simp only at h0
          subst h0
          simp [h]
        · intro j hj
          cases j with
          | zero => simp
          | succ j => simpa using h1 j (by omega)
        · intro j hj hlt
          cases j with
          | zero => omega
          | succ j => simpa using h2 j (by simpa using hj) (by omega)

/-- The second tuner has no parameter `z`. -/
example : (changeTarget [⟨"a", some 0, none, none, some 1, none, some 1⟩] [(.desired, [("a", some 5)])]).2 = .ok () ∧
    (changeTarget [⟨"b", some 0, none, none, some 1, none, some 1⟩] [(.desired, [("z", some 5)])]).2 = .error .keyError := by
  constructor <;> simp [changeTarget, changeColumn, Target.names]

/-- The set point of `a` and the tolerance of `b` are changed. -/
example : ∃ T', changeTarget
      [⟨"a", some 0, none, none, some 1, none, some 1⟩, ⟨"b", some 0, none, none, some 1, none, some 1⟩]
      [(.desired, [("a", some 5)]), (.tolerance, [("b", some 2)])] = (T', .ok ()) ∧
    T' = [⟨"a", some 5, none, none, some 1, none, some 1⟩,
          ⟨"b", some 0, none, none, some 2, none, some 1⟩] := by
  refine ⟨_, ?_, rfl⟩
  simp [changeTarget, changeColumn, Target.names, Series.index, Series.val, List.lookup, Column.set]

/-- Unknown parameters are rejected; the table is unchanged if the first change is wrong. -/
theorem target_change_unknown (T : Target) (c : Column) (s : Series)
    (rest : List (Column × Series)) (l : String) (hl : l ∈ s.index) (hno : l ∉ T.names) :
    changeTarget T ((c, s) :: rest) = (T, .error .keyError) := by
  have : changeColumn T c s = .error .keyError := by
    unfold changeColumn
    rw [if_neg]
    intro h
    rw [List.all_eq_true] at h
    obtain ⟨e, he, rfl⟩ := List.mem_map.1 hl
    exact hno (by simpa using h e he)
  simp [changeTarget, this]

end Qtune.TargetOps
