import Verif.History.TuningPlotModel
import Mathlib.Data.List.Forall2

/-! # C160: `plot_tuning` and the gradient window show what they are asked for -/

namespace Qtune.History.TuningPlot

variable {T : Type}

/-- What is asked for: all names if the mode says so, otherwise the given ones. -/
def asked (part mode : String) (all : List String) (given : Option (List String)) : Option (List String) :=
  if inMode part mode then some all else given

/-- The figure of parameters that is expected: one axes for each name with its title, unit and column, and with error bars if `errors`. -/
def ParameterFigure (d : Source T) (info : String → Option Info) (errors : Bool) (names : List String) (fig : List (Axis T)) : Prop :=
  List.Forall₂ (fun a ax => ∃ i x, info a = some i ∧ d.column a = some x ∧ ax.title = i.name ∧ ax.ylabel = i.unit ∧
    ax.curves = [(a, x, if errors then d.std a else none)]) names fig

/-- One axes for each name, with a curve for each column of the gradient, and with error bars if `errors`. -/
def GradientAxes (d : Source T) (info : String → Option Info) (errors : Bool) (names : List String) (fig : List (Axis T)) : Prop :=
  List.Forall₂ (fun a ax => ∃ i, info a = some i ∧ ax.ylabel = i.gradientUnit ∧
    ax.curves = (d.grads a).map fun c => (c.1, c.2, if errors then (d.gradErrors a).lookup c.1 else none)) names fig

/-- The figure of gradients that is expected: these axes, with a title above the first one only. -/
def GradientFigure (d : Source T) (info : String → Option Info) (errors : Bool) (names : List String) (fig : List (Axis T)) : Prop :=
  GradientAxes d info errors names fig ∧
    ∀ i ax, fig[i]? = some ax → ax.title = if i = 0 then "Response Matrix" else ""

theorem columns_ok {f : String → Option T} : ∀ {names : List String}, (∀ a ∈ names, (f a).isSome) →
    ∃ cs, columns f names = .ok cs ∧ List.Forall₂ (fun a c => c.1 = a ∧ f a = some c.2) names cs ∧
      ∀ a ∈ names, cs.lookup a = f a
  | [], _ => ⟨[], rfl, .nil, by simp⟩
  | a :: l, h => by
    obtain ⟨cs, h1, h2, h3⟩ := columns_ok (names := l) fun b hb => h b (List.mem_cons_of_mem _ hb)
    obtain ⟨x, hx⟩ := Option.isSome_iff_exists.1 (h a (by simp))
    refine ⟨(a, x) :: cs, by simp [columns, hx, h1], .cons ⟨rfl, hx⟩ h2, ?_⟩
    intro b hb
    by_cases hba : b = a
    · subst hba
      rw [List.lookup_cons_self, hx]
    · rw [List.lookup_cons, beq_eq_false_iff_ne.2 hba]
      exact h3 b ((List.mem_cons.1 hb).resolve_left hba)

theorem parameterAxes_ok {d : Source T} {info : String → Option Info} {errors : Bool} {std : List (String × T)} :
    ∀ {names : List String} {cs : List (String × T)}, (∀ a ∈ names, (info a).isSome) →
      List.Forall₂ (fun a c => c.1 = a ∧ d.column a = some c.2) names cs →
      (∀ a ∈ names, std.lookup a = if errors then d.std a else none) →
      ∃ fig, parameterAxes info std cs = .ok fig ∧ ParameterFigure d info errors names fig
  | _, _, _, .nil, _ => ⟨[], rfl, .nil⟩
  | a :: names, (a', x) :: cs, hi, .cons h hr, hs => by
    obtain ⟨h1, h2⟩ := h
    subst h1
    obtain ⟨fig, h3, h4⟩ := parameterAxes_ok (errors := errors) (fun b hb => hi b (List.mem_cons_of_mem _ hb)) hr
      (fun b hb => hs b (List.mem_cons_of_mem _ hb))
    obtain ⟨i, hii⟩ := Option.isSome_iff_exists.1 (hi a' (by simp))
    refine ⟨⟨i.name, i.unit, [(a', x, std.lookup a')]⟩ :: fig, by simp [parameterAxes, hii, h3], .cons ?_ h4⟩
    exact ⟨i, x, hii, h2, rfl, rfl, by rw [hs a' (by simp)]⟩

theorem gradientAxes_ok {d : Source T} {info : String → Option Info} {errors : Bool} :
    ∀ {names : List String}, (∀ a ∈ names, (info a).isSome) → (∀ a ∈ names, d.grads a ≠ []) →
      ∃ fig, gradientAxes d info errors names = .ok fig ∧ GradientAxes d info errors names fig ∧ ∀ ax ∈ fig, ax.title = ""
  | [], _, _ => ⟨[], rfl, .nil, by simp⟩
  | a :: names, hi, hg => by
    obtain ⟨fig, h1, h2, h3⟩ := gradientAxes_ok (errors := errors) (fun b hb => hi b (List.mem_cons_of_mem _ hb))
      (fun b hb => hg b (List.mem_cons_of_mem _ hb))
    obtain ⟨i, hii⟩ := Option.isSome_iff_exists.1 (hi a (by simp))
    rcases hga : d.grads a with _ | ⟨c, l⟩
    · exact absurd hga (hg a (by simp))
    · refine ⟨⟨"", i.gradientUnit, (c :: l).map fun c => (c.1, c.2, if errors then (d.gradErrors a).lookup c.1 else none)⟩ :: fig,
        by simp only [gradientAxes, hga, hii, h1], .cons ⟨i, hii, rfl, ?_⟩ h2, ?_⟩
      · rw [hga]
      · intro ax hax
        rcases List.mem_cons.1 hax with rfl | h
        · rfl
        · exact h3 ax h

theorem headline_ok {d : Source T} {info : String → Option Info} {errors : Bool} {names : List String} {fig : List (Axis T)}
    (h : GradientAxes d info errors names fig) (ht : ∀ ax ∈ fig, ax.title = "") :
    GradientFigure d info errors names (headline fig) := by
  cases h with
  | nil => exact ⟨.nil, by simp [headline]⟩
  | cons h hr =>
    refine ⟨.cons h hr, fun i ax hax => ?_⟩
    cases i with
    | zero => cases hax; rfl
    | succ i => exact ht ax (List.mem_cons_of_mem _ (List.mem_of_getElem? hax))

/-- **C160** (partial).  `plot_tuning` makes exactly the figures that are asked for by names or mode, with all curves, labels and error
bars, if the history has the columns, there are texts for all parameters, and at least two gradients or none are asked
for.  Missing: see the refutations. -/
theorem plot_tuning_partial (d : Source T) (info : String → Option Info) (volts params grads : Option (List String)) (mode : String)
    (hv : ∀ names ∈ asked "all_voltages" mode d.gates volts, ∀ a ∈ names, (d.column a).isSome)
    (hp : ∀ names ∈ asked "all_parameters" mode d.params params, names ≠ [] ∧
      ∀ a ∈ names, (d.column a).isSome ∧ (d.std a).isSome ∧ (info a).isSome)
    (hg : ∀ names ∈ asked "all_gradients" mode d.gradParams grads, 2 ≤ names.length ∧
      ∀ a ∈ names, d.grads a ≠ [] ∧ (info a).isSome) :
    ∃ fig, plotTuning d info volts params grads mode = .ok fig ∧
      Option.Rel (fun names ax => List.Forall₂ (fun a c => c.1 = a ∧ d.column a = some c.2.1 ∧ c.2.2 = none) names ax.curves)
        (asked "all_voltages" mode d.gates volts) fig.voltages ∧
      Option.Rel (ParameterFigure d info (inMode "with_par_variances" mode)) (asked "all_parameters" mode d.params params)
        fig.parameters ∧
      Option.Rel (GradientFigure d info (inMode "with_grad_covariances" mode)) (asked "all_gradients" mode d.gradParams grads)
        fig.gradients := by
  unfold plotTuning
  dsimp only
  change ∃ fig, (match optional (plotVoltages d) (asked "all_voltages" mode d.gates volts) with
    | .error e => .error e
    | .ok v => match optional _ (asked "all_parameters" mode d.params params) with
      | .error e => .error e
      | .ok p => match optional _ (asked "all_gradients" mode d.gradParams grads) with
        | .error e => .error e
        | .ok g => .ok ⟨v, p, g⟩ : Except PyErr (Figures T)) = .ok fig ∧ _
  generalize asked "all_voltages" mode d.gates volts = V at hv ⊢
  generalize asked "all_parameters" mode d.params params = P at hp ⊢
  generalize asked "all_gradients" mode d.gradParams grads = G at hg ⊢
  have h1 : ∃ v, optional (plotVoltages d) V = .ok v ∧ Option.Rel (fun names ax => List.Forall₂ (fun a c =>
      c.1 = a ∧ d.column a = some c.2.1 ∧ c.2.2 = none) names ax.curves) V v := by
    cases V with
    | none => exact ⟨none, rfl, .none⟩
    | some names =>
      obtain ⟨cs, h1, h2, -⟩ := columns_ok (hv names rfl)
      refine ⟨_, by simp only [optional, plotVoltages, h1]; rfl, .some ?_⟩
      dsimp only
      rw [List.forall₂_map_right_iff]
      exact h2.imp fun a c h => ⟨h.1, h.2, rfl⟩
  have h2 : ∃ p, optional (parametersWithErrors d info (inMode "with_par_variances" mode)) P = .ok p ∧
      Option.Rel (ParameterFigure d info (inMode "with_par_variances" mode)) P p := by
    cases P with
    | none => exact ⟨none, rfl, .none⟩
    | some names =>
      obtain ⟨hne, hall⟩ := hp names rfl
      obtain ⟨cs, h1, h2, -⟩ := columns_ok fun a ha => (hall a ha).1
      obtain ⟨std, h3, h4⟩ : ∃ std, (if inMode "with_par_variances" mode then columns d.std names else .ok []) = .ok std ∧
          ∀ a ∈ names, std.lookup a = if inMode "with_par_variances" mode then d.std a else none := by
        cases inMode "with_par_variances" mode with
        | true =>
          obtain ⟨std, h3, -, h4⟩ := columns_ok fun a ha => (hall a ha).2.1
          exact ⟨std, h3, by simpa using h4⟩
        | false => exact ⟨[], rfl, by simp⟩
      obtain ⟨fig, h5, h6⟩ := parameterAxes_ok (errors := inMode "with_par_variances" mode) (fun a ha => (hall a ha).2.2) h2 h4
      refine ⟨some fig, ?_, .some h6⟩
      have h7 : plotParameters info cs std = parameterAxes info std cs := by
        cases h2 with
        | nil => exact absurd rfl hne
        | cons _ _ => rfl
      simp only [optional, parametersWithErrors, h3, h1, h7, h5]
  have h3 : ∃ g, optional (fun names => plotGradients d info (inMode "with_grad_covariances" mode) (subplots names.length) names) G =
      .ok g ∧ Option.Rel (GradientFigure d info (inMode "with_grad_covariances" mode)) G g := by
    cases G with
    | none => exact ⟨none, rfl, .none⟩
    | some names =>
      obtain ⟨hlen, hall⟩ := hg names rfl
      obtain ⟨fig, h1, h2⟩ := gradientAxes_ok (errors := inMode "with_grad_covariances" mode) (fun a ha => (hall a ha).2)
        (fun a ha => (hall a ha).1)
      refine ⟨some (headline fig), ?_, .some (headline_ok h2.1 h2.2)⟩
      have h3 : subplots names.length = .array := by
        obtain ⟨k, hk⟩ : ∃ k, names.length = k + 2 := ⟨names.length - 2, by omega⟩
        rw [hk]
        rfl
      simp only [optional, plotGradients, h3, h1]
  obtain ⟨v, e1, r1⟩ := h1
  obtain ⟨p, e2, r2⟩ := h2
  obtain ⟨g, e3, r3⟩ := h3
  rw [e1]
  dsimp only
  rw [e2]
  dsimp only
  rw [e3]
  exact ⟨_, rfl, r1, r2, r3⟩

/-- **C160** is false for a single gradient: whatever the history contains, the call raises (`TypeError`, unless something else raised
before). -/
theorem single_gradient_refuted (d : Source T) (info : String → Option Info) (volts params grads : Option (List String)) (mode : String)
    {a : String} (hg : asked "all_gradients" mode d.gradParams grads = some [a]) :
    ∃ e, plotTuning d info volts params grads mode = .error e := by
  unfold plotTuning
  dsimp only
  split
  · exact ⟨_, rfl⟩
  · split
    · exact ⟨_, rfl⟩
    · unfold asked at hg
      rw [hg]
      exact ⟨_, rfl⟩

/-- **C160** is false for parameters without texts in `parameter_information`: the call raises if one of the parameters
has none. -/
theorem unknown_parameter_refuted (d : Source T) (info : String → Option Info) (volts params grads : Option (List String))
    (mode : String) {names : List String} {a : String} (hp : asked "all_parameters" mode d.params params = some names)
    (ha : a ∈ names) (hi : info a = none) : ∃ e, plotTuning d info volts params grads mode = .error e := by
  have hcols : ∀ (f : String → Option T) (names : List String) cs, columns f names = .ok cs → cs.map Prod.fst = names := by
    intro f names
    induction names with
    | nil => intro cs h; cases h; rfl
    | cons b l ih =>
      intro cs h
      rw [columns] at h
      split at h
      · cases h
      · split at h
        · cases h
        · rename_i r hr
          cases h
          rw [List.map_cons, ih r hr]
  have hax : ∀ (std cs : List (String × T)) fig, parameterAxes info std cs = .ok fig → ∀ b ∈ cs.map Prod.fst, info b ≠ none := by
    intro std cs
    induction cs with
    | nil => intro fig _ b hb; simp at hb
    | cons c l ih =>
      obtain ⟨b, x⟩ := c
      intro fig h
      rw [parameterAxes] at h
      split at h
      · cases h
      · rename_i i hi'
        split at h
        · cases h
        · rename_i r hr
          intro b' hb'
          rw [List.map_cons, List.mem_cons] at hb'
          rcases hb' with rfl | hb'
          · rw [hi']; simp
          · exact ih r hr b' hb'
  unfold plotTuning
  dsimp only
  split
  · exact ⟨_, rfl⟩
  · unfold asked at hp
    rw [hp]
    split
    · exact ⟨_, rfl⟩
    · rename_i p hres
      exfalso
      simp only [optional] at hres
      split at hres
      · cases hres
      · rename_i fig hfig
        unfold parametersWithErrors at hfig
        split at hfig
        · cases hfig
        · rename_i std hstd
          split at hfig
          · cases hfig
          · rename_i cs hcs
            have hfst := hcols d.column names cs hcs
            have : parameterAxes info std cs = .ok fig := by
              cases cs with
              | nil => cases hfig
              | cons c l => exact hfig
            exact hax std cs fig this a (by rw [hfst]; exact ha) hi

/-- **C160** is false with the names which the evaluators of the tunnel times with a lead have unless others are given (evaluator.py:133,
237): their histories cannot be plotted with `all_parameters`. -/
theorem lead_times_refuted (d : Source T) (volts params grads : Option (List String)) (mode : String)
    (hm : inMode "all_parameters" mode = true) {a : String} (ha : a ∈ d.params)
    (hname : a = "parameter_time_rise" ∨ a = "parameter_time_fall") :
    ∃ e, plotTuning d parameterInformation volts params grads mode = .error e := by
  refine unknown_parameter_refuted d parameterInformation volts params grads mode (by rw [asked, if_pos hm]) ha ?_
  rcases hname with rfl | rfl <;> rfl

/-- **C160**: the texts with which the positions of transitions and gates, the tunnel coupling, the signals of the sensing dot and the
reload time are drawn: axes, title, axes of the gradient. -/
theorem parameter_texts_partial : ∀ e ∈ [
    ("origin x", "Transition Position Lead A (V)", "Transition Position Lead A", "Gradient Transition Lead A (V/V)"),
    ("origin y", "Transition Position Lead B (V)", "Transition Position Lead B", "Gradient Transition Lead B (V/V)"),
    ("position_RFA", "Transition Position Lead A (V)", "Transition Position Lead A", "Gradient Transition Lead A (V/V)"),
    ("position_RFB", "Transition Position Lead B (V)", "Transition Position Lead B", "Gradient Transition Lead B (V/V)"),
    ("position_SDB1", "Voltage (V)", "Voltage on SDB1", "Gradient Voltage on SDB1 (V/V)"),
    ("position_SDB2", "Voltage (V)", "Voltage on SDB2", "Gradient Voltage on SDB2 (V/V)"),
    ("parameter_tunnel_coupling", "Tunnel Coupling (\\mu V)", "Inter-Dot Tunnel Coupling AB", "Gradient Tunnel Coupling (\\mu V / V)"),
    ("current_signal", "Signal (a.u.)", "Current SDot Signal", "Gradient Current SDot Signal (a.u.)"),
    ("optimal_signal", "Signal (a.u.)", "Optimal SDot Signal", "Gradient Optimal SDot Signal (a.u.)"),
    ("parameter_time_load", "Time (ns)", "Singlet Reload Time", "Gradient Singlet Reload Time(ns/V)")],
    (parameterInformation e.1).map (fun i => (i.unit, i.name, i.gradientUnit)) = some e.2 := by
  decide +kernel

/-- **C160**: the titles do not tell the parameters apart; a tunnel coupling and a lead time are drawn as positions of transitions. -/
theorem titles_refuted : (parameterInformation "tunnel_coupling").map Info.name = some "Transition Position Lead B" ∧
    (parameterInformation "lead time").map Info.name = some "Transition Position Lead B" := ⟨rfl, rfl⟩

/-- **C160** is false for the mode `with_par_variences`, which the documentation of the method names: it is not recognized, no error bars are
drawn. -/
theorem documented_mode_refuted (d : Source T) (info : String → Option Info) :
    plotTuning d info none none none "all_parameters with_par_variences" =
      plotTuning d info none (some d.params) none "" := by
  have h1 : inMode "all_voltages" "all_parameters with_par_variences" = false := by decide
  have h2 : inMode "all_parameters" "all_parameters with_par_variences" = true := by decide
  have h3 : inMode "all_gradients" "all_parameters with_par_variences" = false := by decide
  have h4 : inMode "with_par_variances" "all_parameters with_par_variences" = false := by decide
  have h1' : inMode "all_voltages" "" = false := by decide
  have h2' : inMode "all_parameters" "" = false := by decide
  have h3' : inMode "all_gradients" "" = false := by decide
  have h4' : inMode "with_par_variances" "" = false := by decide
  unfold plotTuning
  rw [h1, h2, h3, h4, h1', h2', h3', h4']
  rfl

/-- **C160** for the gradient window: with one parameter a new window shows nothing, but after the next refresh it does. -/
theorem gradient_window_refuted (d : Source T) (info : String → Option Info) (a : String) (hg : d.grads a ≠ []) (hi : (info a).isSome) :
    (gradientWindow d info 0 [a]).2 = .error .typeError ∧
      ∃ fig, (gradientWindow d info (gradientWindow d info 0 [a]).1 [a]).2 = .ok fig ∧ GradientFigure d info true [a] fig := by
  refine ⟨rfl, ?_⟩
  obtain ⟨fig, h1, h2⟩ := gradientAxes_ok (d := d) (info := info) (errors := true) (names := [a]) (by simpa using hi) (by simpa using hg)
  refine ⟨headline fig, ?_, headline_ok h2.1 h2.2⟩
  have : (gradientWindow d info 0 [a]).1 = 1 := rfl
  rw [this]
  unfold gradientWindow
  rw [if_pos (by simp), h1]
  cases h2.1 with
  | cons _ _ => rfl

/-- **C160** for the gradient window: with a parameter without gradient the window shows nothing, ever. -/
theorem gradient_window_missing_refuted (d : Source T) (info : String → Option Info) (axes : Nat) {names : List String} {a : String}
    (ha : a ∈ names) (hg : d.grads a = []) : ∃ e, (gradientWindow d info axes names).2 = .error e := by
  have key : ∀ names : List String, a ∈ names → ∃ e, gradientAxes d info true names = .error e := by
    intro names
    induction names with
    | nil => intro h; simp at h
    | cons b l ih =>
      intro h
      rcases hgb : d.grads b with _ | ⟨c, m⟩
      · exact ⟨_, by rw [gradientAxes, hgb]⟩
      · rcases List.mem_cons.1 h with rfl | h
        · rw [hg] at hgb
          cases hgb
        · obtain ⟨e, he⟩ := ih h
          rcases hib : info b with _ | i
          · exact ⟨.keyError, by simp only [gradientAxes, hgb, hib]⟩
          · exact ⟨e, by simp only [gradientAxes, hgb, hib, he]⟩
  obtain ⟨e, he⟩ := key names ha
  unfold gradientWindow
  split
  · rw [he]
    exact ⟨e, rfl⟩
  · unfold plotGradients
    dsimp only
    split
    · exact ⟨_, rfl⟩
    · exact ⟨_, rfl⟩
    · rw [he]
      exact ⟨e, rfl⟩

/-- A history with two gates and two parameters. -/
def exSource : Source Nat where
  gates := ["g", "h"]
  params := ["current_signal", "position_RFA"]
  gradParams := ["current_signal", "position_RFA"]
  column := fun n => if n = "g" ∨ n = "h" ∨ n = "current_signal" ∨ n = "position_RFA" then some n.length else none
  std := fun n => if n = "current_signal" ∨ n = "position_RFA" then some 1 else none
  grads := fun n => if n = "current_signal" ∨ n = "position_RFA" then [("g", 1), ("h", 2)] else []
  gradErrors := fun _ => [("g", 3)]

def exInfo : String → Option Info := fun n => if n = "current_signal" ∨ n = "position_RFA" then some ⟨"u", n, "v"⟩ else none

/-- The hypotheses are met: everything can be plotted. -/
example : ∃ fig, plotTuning exSource exInfo none none none
    "all_voltages all_parameters all_gradients with_par_variances" = .ok fig ∧ fig.voltages ≠ none := by
  have h1 : inMode "all_voltages" "all_voltages all_parameters all_gradients with_par_variances" = true := by decide
  have h2 : inMode "all_parameters" "all_voltages all_parameters all_gradients with_par_variances" = true := by decide
  have h3 : inMode "all_gradients" "all_voltages all_parameters all_gradients with_par_variances" = true := by decide
  obtain ⟨fig, h, hv, -⟩ := plot_tuning_partial exSource exInfo none none none
    "all_voltages all_parameters all_gradients with_par_variances"
    (by
      intro names hn
      simp [asked, h1] at hn
      subst hn
      simp [exSource])
    (by
      intro names hn
      simp [asked, h2] at hn
      subst hn
      simp [exSource, exInfo])
    (by
      intro names hn
      simp [asked, h3] at hn
      subst hn
      simp [exSource, exInfo])
  refine ⟨fig, h, ?_⟩
  intro hn
  rw [hn] at hv
  simp only [asked, h1] at hv
  cases hv

end Qtune.History.TuningPlot
