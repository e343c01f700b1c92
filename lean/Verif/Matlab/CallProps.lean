import Verif.Matlab.CallModel

/-! # Calls of MATLAB functions through views: specification and theorems -/

namespace Qtune.Matlab

variable {V : Type} {get : V → String → Option V}

/-! ### Specification -/

/-- A view shows a value: the value of the variable, the result of the call, or the field of what the view that it was
made from shows. -/
inductive Shows (get : V → String → Option V) (w : Workspace V) : MExpr → V → Prop
  | var {x v} : w.vars x = some v → Shows get w (.var x) v
  | result {id args v} : w.call? id = some (args, some v) → Shows get w (.result id) v
  | field {e f u v} : Shows get w e u → get u f = some v → Shows get w (.field e f) v

/-- The value that the user passes: what the view shows at the time of the call, or the value itself. -/
def Arg.Means (get : V → String → Option V) (w : Workspace V) : Arg V → V → Prop
  | .view e, v => Shows get w e v
  | .plain u, v => u = v

/-- The expression reads the variable `x`. -/
def MExpr.Reads (x : String) : MExpr → Prop
  | .var y => y = x
  | .result _ => False
  | .field e _ => e.Reads x

/-- The expression reads the result of call `id`. -/
def MExpr.ReadsResult (id : Nat) : MExpr → Prop
  | .var _ => False
  | .result i => i = id
  | .field e _ => e.ReadsResult id

/-! ### Helper lemmas -/

theorem shows_iff (w : Workspace V) (e : MExpr) : ∀ v, Shows get w e v ↔ e.eval get w = some v := by
  induction e with
  | var x => exact fun v => ⟨fun h => by cases h with | var h => exact h, .var⟩
  | result id =>
    refine fun v => ⟨fun h => by cases h with | result h => simp [MExpr.eval, h], fun h => ?_⟩
    simp only [MExpr.eval, Option.bind_eq_some_iff] at h
    obtain ⟨⟨args, r⟩, h1, rfl⟩ := h
    exact .result h1
  | field e f ih =>
    refine fun v => ⟨fun h => ?_, fun h => ?_⟩
    · cases h with
      | field h1 h2 => simp [MExpr.eval, (ih _).1 h1, h2]
    · simp only [MExpr.eval, Option.bind_eq_some_iff] at h
      obtain ⟨u, h1, h2⟩ := h
      exact .field ((ih u).2 h1) h2

theorem call?_setCall (w : Workspace V) (id : Nat) (r : List V × Option V) : (w.setCall id r).call? id = some r := by
  simp [Workspace.call?, Workspace.setCall, List.lookup]

theorem lookup_filter_ne {α : Type} (l : List (Nat × α)) {id j : Nat} (h : j ≠ id) :
    (l.filter fun e => e.1 ≠ id).lookup j = l.lookup j := by
  induction l with
  | nil => rfl
  | cons a l ih =>
    obtain ⟨i, a⟩ := a
    by_cases hi : i = id
    · subst hi
      rw [List.filter_cons_of_neg (by simp), ih, List.lookup_cons]
      rw [beq_eq_false_iff_ne.2 h]
    · rw [List.filter_cons_of_pos (by simpa using hi), List.lookup_cons, List.lookup_cons, ih]

theorem call?_setCall_ne (w : Workspace V) {id j : Nat} (h : j ≠ id) (r : List V × Option V) :
    (w.setCall id r).call? j = w.call? j := by
  unfold Workspace.call? Workspace.setCall
  simp only [Option.bind_some, List.lookup_cons, beq_eq_false_iff_ne.2 h]
  rw [lookup_filter_ne _ h]
  cases w.calls <;> rfl

/-- Two workspaces in which the same expressions that do not read `temp` and the call `id` have the same value. -/
def Agree (id : Nat) (w w' : Workspace V) : Prop :=
  (∀ x, x ≠ "temp" → w'.vars x = w.vars x) ∧ ∀ j, j ≠ id → w'.call? j = w.call? j

theorem Agree.eval {id : Nat} {w w' : Workspace V} (h : Agree id w w') (e : MExpr) (h1 : ¬ e.Reads "temp")
    (h2 : ¬ e.ReadsResult id) : e.eval get w' = e.eval get w := by
  induction e with
  | var x => exact h.1 x h1
  | result j =>
    unfold MExpr.eval
    rw [h.2 j h2]
  | field e f ih =>
    unfold MExpr.eval
    rw [ih h1 h2]

theorem Agree.trans {id : Nat} {w w' w'' : Workspace V} (h : Agree id w w') (h' : Agree id w' w'') : Agree id w w'' :=
  ⟨fun x hx => (h'.1 x hx).trans (h.1 x hx), fun j hj => (h'.2 j hj).trans (h.2 j hj)⟩

theorem agree_setCall (w : Workspace V) (id : Nat) (r : List V × Option V) : Agree id w (w.setCall id r) :=
  ⟨fun _ _ => rfl, fun _ hj => call?_setCall_ne w hj r⟩

theorem agree_temp (id : Nat) (w : Workspace V) (v : V) :
    Agree id w { w with vars := Function.update w.vars "temp" (some v) } :=
  ⟨fun _ hx => Function.update_of_ne hx _ _, fun _ _ => rfl⟩

theorem putArgs_agree (id : Nat) : ∀ (args : List (Arg V)) (w : Workspace V), Agree id w (putArgs get id args w).1 := by
  intro args
  induction args with
  | nil => intro w; exact ⟨fun _ _ => rfl, fun _ _ => rfl⟩
  | cons a as ih =>
    intro w
    unfold putArgs
    cases a with
    | view e =>
      simp only
      split
      · exact (agree_setCall _ _ _).trans (ih _)
      · exact ⟨fun _ _ => rfl, fun _ _ => rfl⟩
    | plain v =>
      simp only
      split
      · exact (agree_temp id w v).trans ((agree_setCall _ _ _).trans (ih _))
      · exact agree_temp id w v

theorem callView_agree (f : List V → Option V) (args : List (Arg V)) (id : Nat) (w : Workspace V) :
    Agree id w (callView get f args id w).1 := by
  have h := (agree_setCall w id ([], none)).trans (putArgs_agree (get := get) id args (w.setCall id ([], none)))
  unfold callView
  rcases hp : putArgs get id args (w.setCall id ([], none)) with ⟨w', r⟩
  rw [hp] at h
  cases r with
  | error e => exact h
  | ok u =>
    simp only
    split
    · exact h
    · split
      · exact h
      · exact h.trans (agree_setCall _ _ _)

/-- Arguments that do not read `temp` are stored with the values that they have at the time of the call. -/
theorem putArgs_ok (id : Nat) : ∀ (args : List (Arg V)) (vs pre : List V) (r : Option V) (w₀ w : Workspace V),
    Agree id w₀ w → w.call? id = some (pre, r) →
    (∀ e, .view e ∈ args → ¬ e.Reads "temp" ∧ ¬ e.ReadsResult id) →
    List.Forall₂ (Arg.Means get w₀) args vs →
    ∃ w', putArgs get id args w = (w', .ok ()) ∧ w'.call? id = some (pre ++ vs, r) := by
  intro args
  induction args with
  | nil =>
    intro vs pre r w₀ w _ hc _ hvs
    cases hvs
    exact ⟨w, rfl, by simpa using hc⟩
  | cons a as ih =>
    intro vs pre r w₀ w hagree hc hno hvs
    cases hvs with
    | @cons _ v _ vs hv hvs =>
    unfold putArgs
    cases a with
    | view e =>
      have he : e.eval get w = some v := by
        obtain ⟨h1, h2⟩ := hno e (by simp)
        rw [hagree.eval e h1 h2]
        exact (shows_iff w₀ e v).1 hv
      simp only [he, hc]
      obtain ⟨w', h1, h2⟩ := ih vs (pre ++ [v]) r w₀ (w.setCall id (pre ++ [v], r))
        (hagree.trans (agree_setCall _ _ _)) (call?_setCall _ _ _) (fun e he => hno e (by simp [he])) hvs
      exact ⟨w', h1, by simpa using h2⟩
    | plain u =>
      have huv : u = v := hv
      subst huv
      have hc' : ({ w with vars := Function.update w.vars "temp" (some u) } : Workspace V).call? id = some (pre, r) := hc
      simp only [MExpr.eval, Function.update_self, hc']
      obtain ⟨w', h1, h2⟩ := ih vs (pre ++ [u]) r w₀
        (({ w with vars := Function.update w.vars "temp" (some u) } : Workspace V).setCall id (pre ++ [u], r))
        (hagree.trans ((agree_temp id w u).trans (agree_setCall _ _ _))) (call?_setCall _ _ _)
        (fun e he => hno e (by simp [he])) hvs
      exact ⟨w', h1, by simpa using h2⟩

/-! ### Theorems -/

/-- **C136**, arguments and result.  If no argument is a view on the variable `temp`, the function is called with the
values of the arguments at the time of the call in their order, and the returned view and the views on its fields show the result.
`id` is the new name of the call: no view refers to it yet.  Missing: views on `temp`, see
`call_arguments_refuted`. -/
theorem call_arguments_partial (f : List V → Option V) (args : List (Arg V)) (vs : List V) (id : Nat) (w : Workspace V)
    (hnew : ∀ e, .view e ∈ args → ¬ e.ReadsResult id) (htemp : ∀ e, .view e ∈ args → ¬ e.Reads "temp")
    (hvs : List.Forall₂ (Arg.Means get w) args vs) :
    (∀ r, f vs = some r →
      (callView get f args id w).2 = .ok (.result id) ∧ (MExpr.result id).eval get (callView get f args id w).1 = some r ∧
      ∀ g, (MExpr.field (.result id) g).eval get (callView get f args id w).1 = get r g) ∧
    (f vs = none → (callView get f args id w).2 = .error matlabError) := by
  obtain ⟨w', h1, h2⟩ := putArgs_ok (get := get) id args vs [] none w (w.setCall id ([], none)) (agree_setCall _ _ _)
    (call?_setCall _ _ _) (fun e he => ⟨htemp e he, hnew e he⟩) hvs
  constructor
  · intro r hr
    unfold callView
    rw [h1]
    simp only [h2, List.nil_append, hr]
    exact ⟨trivial, by simp [MExpr.eval, call?_setCall], fun g => by simp [MExpr.eval, call?_setCall]⟩
  · intro hr
    unfold callView
    rw [h1]
    simp only [h2, List.nil_append, hr]

/-- **C136**, the workspace.  A call, whether it succeeds or not, changes no variable of the user other than `temp`, and
no result of another call: every view that reads neither `temp` nor this call shows the same as before. -/
theorem call_leaves_views_partial (f : List V → Option V) (args : List (Arg V)) (id : Nat) (w : Workspace V) :
    (∀ x, x ≠ "temp" → (callView get f args id w).1.vars x = w.vars x) ∧
    ∀ e : MExpr, ¬ e.Reads "temp" → ¬ e.ReadsResult id → e.eval get (callView get f args id w).1 = e.eval get w :=
  ⟨(callView_agree f args id w).1, fun e h1 h2 => (callView_agree f args id w).eval e h1 h2⟩

/-- **C136**, histories.  The result of a call stays valid during all later calls of all functions, as long as no
temporary data are cleared. -/
theorem results_stay_valid_partial : ∀ (ops : List (CallOp V)), (∀ op ∈ ops, op ≠ .clear) →
    ∀ (k : Nat) (w : Workspace V) (id : Nat), id < k →
      (MExpr.result id).eval get (runCalls get k ops w).1 = (MExpr.result id).eval get w := by
  intro ops
  induction ops with
  | nil => intro _ k w id _; rfl
  | cons op ops ih =>
    intro h k w id hid
    cases op with
    | clear => exact absurd rfl (h .clear (by simp))
    | call f args =>
      unfold runCalls
      simp only
      rw [ih (fun op hop => h op (by simp [hop])) (k + 1) _ id (by omega)]
      exact (callView_agree f args k w).eval _ (fun h => h) (fun h => absurd (show id = k from h) (by omega))

/-- **C136**, histories.  As long as no temporary data are cleared: whatever is called in whatever order, there is an outcome for each call, each
outcome that is no exception is a new view, and at the end all of these views show a result. -/
theorem outcomes_stay_valid_partial : ∀ (ops : List (CallOp V)), (∀ op ∈ ops, op ≠ .clear) → ∀ (k : Nat) (w : Workspace V),
    (runCalls get k ops w).2.length = ops.length ∧
    (runCalls get k ops w).2.Pairwise (fun a b => ∀ m, a = .ok m → b ≠ .ok m) ∧
    ∀ m, .ok m ∈ (runCalls get k ops w).2 → (∃ id, m = .result id ∧ k ≤ id) ∧ (m.eval get (runCalls get k ops w).1).isSome := by
  have hcall : ∀ f (args : List (Arg V)) k (w : Workspace V) m, (callView get f args k w).2 = .ok m →
      m = .result k ∧ ((MExpr.result k).eval get (callView get f args k w).1).isSome := by
    intro f args k w m
    unfold callView
    rcases putArgs get k args (w.setCall k ([], none)) with ⟨w', _ | _⟩
    · simp
    · dsimp only
      split
      · simp
      · split
        · simp
        · intro h
          cases h
          exact ⟨rfl, by simp [MExpr.eval, call?_setCall]⟩
  intro ops
  induction ops with
  | nil => intro _ k w; simp [runCalls]
  | cons op ops ih =>
    intro h k w
    cases op with
    | clear => exact absurd rfl (h .clear (by simp))
    | call f args =>
      have hno : ∀ op ∈ ops, op ≠ .clear := fun op hop => h op (by simp [hop])
      obtain ⟨i1, i2, i3⟩ := ih hno (k + 1) (callView get f args k w).1
      unfold runCalls
      refine ⟨by simp [i1], List.pairwise_cons.2 ⟨?_, i2⟩, ?_⟩
      · rintro b hb m hm rfl
        obtain ⟨⟨id, e, hid⟩, -⟩ := i3 m hb
        have := (hcall f args k w m hm).1
        rw [e, MExpr.result.injEq] at this
        omega
      · intro m hm
        rcases List.mem_cons.1 hm with hm | hm
        · obtain ⟨rfl, hs⟩ := hcall f args k w m hm.symm
          refine ⟨⟨k, rfl, Nat.le_refl k⟩, ?_⟩
          simp only
          rw [results_stay_valid_partial ops hno (k + 1) _ k (by omega)]
          exact hs
        · obtain ⟨⟨id, e, hid⟩, hs⟩ := i3 m hm
          exact ⟨⟨id, e, by omega⟩, hs⟩

/-- **C136**, histories.  A result that has been cleared never shows anything again, not even the result of another call. -/
theorem cleared_results_stay_invalid : ∀ (ops : List (CallOp V)) (k : Nat) (w : Workspace V) (id : Nat), id < k →
    (MExpr.result id).eval get w = none → (MExpr.result id).eval get (runCalls get k ops w).1 = none := by
  intro ops
  induction ops with
  | nil => intro k w id _ h; exact h
  | cons op ops ih =>
    intro k w id hid h
    cases op with
    | clear => exact ih k _ id hid rfl
    | call f args =>
      refine ih (k + 1) _ id (by omega) ?_
      rw [← h]
      exact (callView_agree f args k w).eval _ (fun h => h) (fun h => absurd (show id = k from h) (by omega))

/-- **C136** is refuted for views on `temp`: after a plain argument `v` the view passes `v` instead of the value `u` that it
showed, for every workspace and every function that tells the two apart. -/
theorem call_arguments_refuted (f : List V → Option V) (u v r r' : V) (id : Nat) (w : Workspace V)
    (hu : Shows get w (.var "temp") u) (hr : f [v, u] = some r) (hr' : f [v, v] = some r')
    (hne : r ≠ r') :
    List.Forall₂ (Arg.Means get w) [.plain v, .view (.var "temp")] [v, u] ∧
    (callView get f [.plain v, .view (.var "temp")] id w).2 = .ok (.result id) ∧
    (MExpr.result id).eval get (callView get f [.plain v, .view (.var "temp")] id w).1 = some r' ∧
    (MExpr.result id).eval get (callView get f [.plain v, .view (.var "temp")] id w).1 ≠ f [v, u] := by
  have key : (MExpr.result id).eval get (callView get f [.plain v, .view (.var "temp")] id w).1 = some r' := by
    simp [callView, putArgs, MExpr.eval, Workspace.call?, Workspace.setCall, List.lookup, hr']
  refine ⟨.cons rfl (.cons hu .nil), ?_, key, ?_⟩
  · simp [callView, putArgs, MExpr.eval, Workspace.call?, Workspace.setCall, List.lookup, hr']
  · rw [key, hr]
    simpa using fun h => hne h.symm

/-- **C136** is refuted for the workspace: a plain argument replaces the value of the variable `temp` of the user. -/
theorem call_leaves_views_refuted (f : List V → Option V) (v : V) (id : Nat) (w : Workspace V) :
    (callView get f [.plain v] id w).1.vars "temp" = some v := by
  cases hf : f [v] <;>
    simp [callView, putArgs, MExpr.eval, Workspace.call?, Workspace.setCall, List.lookup, hf]

/-- **C136** is refuted for histories: clearing the temporary data of any function view invalidates the results of the
calls of all functions. -/
theorem results_stay_valid_refuted (k : Nat) (w : Workspace V) (id : Nat) :
    (MExpr.result id).eval get (runCalls get k [.clear] w).1 = none := by
  simp [runCalls, clearCalls, MExpr.eval, Workspace.call?]

/-- The data of every call, also of a failed one, stay in MATLAB: their number grows with every call. -/
theorem calls_accumulate (f : List V → Option V) (args : List (Arg V)) (id : Nat) (w : Workspace V) :
    ((callView get f args id w).1.call? id).isSome := by
  have key : ∀ (args : List (Arg V)) (w : Workspace V), (w.call? id).isSome →
      ((putArgs get id args w).1.call? id).isSome := by
    intro args
    induction args with
    | nil => intro w h; exact h
    | cons a as ih =>
      intro w h
      unfold putArgs
      cases a with
      | view e =>
        simp only
        split
        · exact ih _ (by rw [call?_setCall]; rfl)
        · exact h
      | plain v =>
        simp only
        split
        · exact ih _ (by rw [call?_setCall]; rfl)
        · exact h
  have h := key args (w.setCall id ([], none)) (by rw [call?_setCall]; rfl)
  unfold callView
  rcases hp : putArgs get id args (w.setCall id ([], none)) with ⟨w', r⟩
  rw [hp] at h
  cases r with
  | error e => exact h
  | ok u =>
    simp only
    split
    · exact h
    · split
      · exact h
      · rw [call?_setCall]; rfl

/-- The hypotheses are satisfiable: `plus(x, 2)` with a variable `x` of the user. -/
example : ∃ (f : List Nat → Option Nat) (args : List (Arg Nat)) (w : Workspace Nat),
    (∀ e, .view e ∈ args → ¬ e.ReadsResult 0) ∧ (∀ e, .view e ∈ args → ¬ e.Reads "temp") ∧
    List.Forall₂ (Arg.Means (fun _ _ => none) w) args [3, 2] ∧ f [3, 2] = some 5 := by
  refine ⟨fun l => some l.sum, [.view (.var "x"), .plain 2], ⟨fun x => if x = "x" then some 3 else none, none⟩,
    ?_, ?_, ?_, rfl⟩
  · intro e he
    simp at he
    subst he
    exact fun h => h
  · intro e he
    simp at he
    subst he
    simp [MExpr.Reads]
  · exact .cons (.var (by simp)) (.cons rfl .nil)

end Qtune.Matlab
