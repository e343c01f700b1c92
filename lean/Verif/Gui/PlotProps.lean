import Verif.Gui.PlotLemmas

/-! # The plot of the gui shows what is selected (C152) -/

namespace Qtune.Gui.Plot

variable {T : Type}

theorem session_append (p : Plots T) (l l' : List (Source T × Selection)) :
    session p (l ++ l') = session (session p l) l' := by
  induction l generalizing p with
  | nil => rfl
  | cons a l ih => exact ih _

theorem session_regular {sel : Selection} (ho : sel.Once) (hn : sel.Named) : ∀ (l : List (Source T × Selection))
    (_ : ∀ x ∈ l, x.2.Once ∧ x.2.Named ∧ x.2.SameTree sel) {p : Plots T}, Regular sel p → Regular sel (session p l)
  | [], _, _, hp => hp
  | x :: l, h, p, hp => by
    obtain ⟨h1, h2, h3⟩ := h x List.mem_cons_self
    exact session_regular ho hn l (fun y hy => h y (List.mem_cons_of_mem _ hy))
      (regular_of_same h3 (refresh_regular h1 h2 (regular_of_same (fun i => (h3 i).symm) hp)))

/-- **C152** (partial).  Whatever was selected and shown before, and whichever earlier refreshs were ended by an
exception: after a refresh that finds its data, the plot shows exactly the selected curves and error bars, with
the data that the history has now.  This holds for gates and parameters whose names differ, have no `#` in
them, and if no gate is called `err_bar`. -/
theorem plot_shows_selection_partial {H : Source T} {sel : Selection} (ho : sel.Once) (hn : sel.Named)
    (hH : Available H sel) (l : List (Source T × Selection))
    (hl : ∀ x ∈ l, x.2.Once ∧ x.2.Named ∧ x.2.SameTree sel) :
    (refresh H sel (session (fun _ => none) l)).2 = .ok () ∧
      Displays H sel (session (fun _ => none) (l ++ [(H, sel)])) := by
  have hp : Regular sel (session (fun _ => none) l) := session_regular ho hn l hl (by
    intro k d hd; simp at hd)
  have hkind : ∀ i, sel.Offers i → ∀ d, session (fun _ => none) l i.key = some d → i.Kind d := by
    intro i hi d hd
    obtain ⟨j, hj, hk, hm⟩ := hp _ d hd
    obtain rfl := key_injective hn hj hi hk
    cases j <;> cases d <;> simp_all [Item.Kind]
  have hok := (refresh_calm hn hH _ hkind).1
  refine ⟨hok, ?_⟩
  rw [session_append]
  exact refresh_displays ho hn hp hok

/-- **C152**, refuted for a gate and a parameter of the same name: if the gate is selected and the parameter is
not, the gate is not shown. -/
theorem plot_same_name_refuted (name : String) (H : Source T) {d : T} (hg : H.gate name = .ok d) :
    refresh H ⟨[(name, true)], [(name, .nothing)], []⟩ (fun _ => none) = ((fun _ => none), .ok ()) ∧
      ¬ Displays H ⟨[(name, true)], [(name, .nothing)], []⟩
        (refresh H ⟨[(name, true)], [(name, .nothing)], []⟩ (fun _ => none)).1 := by
  have h : refresh H ⟨[(name, true)], [(name, .nothing)], []⟩ (fun _ => none) = ((fun _ => none), .ok ()) := by
    simp [refresh, forEach, Part.next, gatePart, paramPart, fetch, hg, drawCurve, remove, Choice.plots]
  refine ⟨h, fun hd => ?_⟩
  rw [h] at hd
  have := (hd.1 (.gate name) ⟨true, by simp⟩ (.curve d)).2 ⟨by simp, d, hg, rfl⟩
  simp at this

/-- **C152**, refuted for histories without the gradient of some parameter: although nothing of this gradient is
selected, the curves of the parameters after it are not drawn. -/
theorem plot_missing_gradient_refuted (p p' g g' : String) (H : Source T) {e : PyErr} {f : String → Option T} {d : T}
    (hp : H.grads p = .error e) (hp' : H.grads p' = .ok f) (hd : f g' = some d) :
    refresh H ⟨[], [], [(p, [(g, .nothing)]), (p', [(g', .plot)])]⟩ (fun _ => none) = ((fun _ => none), .error e) ∧
      ¬ Displays H ⟨[], [], [(p, [(g, .nothing)]), (p', [(g', .plot)])]⟩
        (refresh H ⟨[], [], [(p, [(g, .nothing)]), (p', [(g', .plot)])]⟩ (fun _ => none)).1 := by
  have h : refresh H ⟨[], [], [(p, [(g, .nothing)]), (p', [(g', .plot)])]⟩ (fun _ => none) =
      ((fun _ => none), .error e) := by
    simp [refresh, forEach, Part.next, gradsPart, fetch, hp]
  refine ⟨h, fun hds => ?_⟩
  rw [h] at hds
  have := (hds.1 (.grad p' g') ⟨[(g', .plot)], .plot, by simp, by simp⟩ (.curve d)).2
    ⟨[(g', .plot)], by simp, by simp, f, d, hp', hd, rfl⟩
  simp at this

/-! ### A history and a session that meet the hypotheses -/

/-- A history with one gate, one parameter and its gradient. -/
def sampleSource (n : Nat) : Source Nat where
  gate := fun g => if g = "RFA" then .ok n else .error .keyError
  param := fun p => if p = "tc" then .ok (n + 1) else .error .keyError
  std := fun p => if p = "tc" then .ok 7 else .error .keyError
  grads := fun _ => .ok fun g => if g = "RFA" then some (n + 2) else none
  gradErrors := fun _ => .ok fun _ => none

def sampleSelection (b : Bool) (c c' : Choice) : Selection := ⟨[("RFA", b)], [("tc", c)], [("tc", [("RFA", c')])]⟩

theorem sampleSelection_named (b : Bool) (c c' : Choice) :
    (sampleSelection b c c').Once ∧ (sampleSelection b c c').Named := by
  refine ⟨⟨by simp [sampleSelection], by simp [sampleSelection], by simp [sampleSelection], ?_⟩, ⟨?_, ?_, ?_, ?_⟩⟩
  · intro p l h; simp [sampleSelection] at h; simp [h]
  · intro g b c h h'
    simp [sampleSelection] at h h'
    have := h.1.symm.trans h'.1
    revert this; decide
  · intro g b h; simp [sampleSelection] at h; rw [h.1]; decide
  · intro g b h; simp [sampleSelection] at h; rw [h.1]; decide
  · intro p l h
    simp [sampleSelection] at h
    obtain ⟨rfl, rfl⟩ := h
    refine ⟨by decide, fun g c h => ?_⟩
    simp at h
    rw [h.1]
    exact ⟨by decide, by decide⟩

theorem sampleSelection_same (b b' : Bool) (c c' e e' : Choice) :
    (sampleSelection b c c').SameTree (sampleSelection b' e e') := by
  intro i
  cases i <;> simp [Selection.Offers, sampleSelection]
  · constructor <;> rintro ⟨_, ⟨h, rfl⟩, _, hx⟩ <;> simp at hx <;> exact ⟨_, ⟨h, rfl⟩, _, by simp [hx.1]; rfl⟩
  · constructor <;> rintro ⟨_, ⟨h, rfl⟩, _, hx⟩ <;> simp at hx <;> exact ⟨_, ⟨h, rfl⟩, _, by simp [hx.1]; rfl⟩

/-- First everything is shown, then the gate is taken away while the history has grown. -/
example : Displays (sampleSource 8) (sampleSelection false .plotError .plot)
    (session (fun _ => none) [(sampleSource 3, sampleSelection true .plot .plotError),
      (sampleSource 8, sampleSelection false .plotError .plot)]) :=
  (plot_shows_selection_partial (sampleSelection_named _ _ _).1 (sampleSelection_named _ _ _).2
    ⟨by simp [sampleSelection], by simp [sampleSelection, sampleSource], by simp [sampleSelection, sampleSource],
      by simp [sampleSelection, sampleSource]⟩ [(sampleSource 3, sampleSelection true .plot .plotError)]
    (by
      intro x hx
      simp at hx
      subst hx
      exact ⟨(sampleSelection_named _ _ _).1, (sampleSelection_named _ _ _).2, sampleSelection_same _ _ _ _ _ _⟩)).2

end Qtune.Gui.Plot
