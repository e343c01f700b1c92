import Verif.Matlab.ViewSpec

/-! # C206: views on MATLAB data -/

namespace Qtune.Matlab.Views

/-! ### Lemmas -/

/-- An expression that is not the name of a function. -/
def Expr.NotFunction (s : Session) (e : Expr) : Prop := ∀ x, e = .var x → x ∉ s.functions

theorem makeView_shows {s : Session} {e : Expr} {d : Data} (hf : e.NotFunction s) (h : e.eval s = some d) :
    ∃ v, makeView s e = .ok v ∧ v.Shows s d ∧ ∀ e', v.expr? = some e' → e' = e := by
  have h0 : isFunction s e = false := by
    cases e with
    | var x =>
      rw [Bool.eq_false_iff]
      intro hx
      exact hf x rfl (List.contains_iff_mem.1 hx)
    | _ => rfl
  unfold makeView
  rw [h0, h]
  cases d with
  | struct l => exact ⟨_, rfl, .struct _ _ h, fun e' he => by cases he; rfl⟩
  | cell l => exact ⟨_, rfl, .cell _ _ h, fun e' he => by cases he; rfl⟩
  | table l => exact ⟨_, rfl, .table _ _ h, fun e' he => by cases he; rfl⟩
  | other x => exact ⟨_, rfl, .data _, fun e' he => by cases he⟩

theorem lookup_mem {f : String} {d : Data} : ∀ {l : List (String × Data)}, l.lookup f = some d → (l.map Prod.fst).contains f = true
  | [], h => by cases h
  | (g, x) :: l, h => by
    rw [List.contains_iff_mem]
    rw [List.lookup_cons] at h
    by_cases hg : f = g
    · simp [hg]
    · rw [beq_eq_false_iff_ne.2 hg] at h
      have := List.contains_iff_mem.1 (lookup_mem h)
      simp [this]

/-- The expression of a view after a step. -/
def stepExpr (d : Data) (e : Expr) : Step → Expr
  | .attr f => match d with | .table _ => .column e f | _ => .field e f
  | .item i => .item e (transformInt i)

theorem literal_int (i : Nat) : MIdx.literal (transformInt (i : ℤ)) = some ((i : ℤ) + 1) := by
  rw [transformInt, if_neg (by omega)]
  rfl

theorem stepExpr_eval {s : Session} {e : Expr} {d₀ d : Data} {p : Step} (he : e.eval s = some d)
    (hc : ¬ IntoCell d p) : (stepExpr d₀ e p).eval s = d.step p := by
  cases p with
  | attr f =>
    cases d₀ <;> rcases d with l | l | l | x <;>
      first
        | (simp [stepExpr, Expr.eval, he, Data.step]; done)
        | (rcases l with _ | ⟨a, _ | ⟨b, l⟩⟩ <;> simp [stepExpr, Expr.eval, he, Data.step])
  | item i =>
    rcases d with l | l | l | x
    · have : (1 : ℤ) ≤ (i : ℤ) + 1 := by omega
      rcases l with _ | ⟨a, _ | ⟨b, l⟩⟩ <;> simp [stepExpr, Expr.eval, he, Data.step, literal_int, this]
    · exact (hc trivial).elim
    · simp [stepExpr, Expr.eval, he, Data.step]
    · simp [stepExpr, Expr.eval, he, Data.step]

theorem stepExpr_notFunction (s : Session) (d : Data) (e : Expr) (p : Step) : (stepExpr d e p).NotFunction s := by
  intro x h
  cases p <;> cases d <;> cases h

/-- What line 166 and lines 162-164 see: `f` is a field of the only element. -/
theorem attr_struct {s : Session} {e : Expr} {fields : List (String × Data)} {f : String} {d : Data}
    (he : e.eval s = some (.struct [fields])) (hp : f.toList.head? ≠ some '_') (hd : fields.lookup f = some d) :
    (View.struct e).attr s f = makeView s (.field e f) := by
  have hn : hasName s e f = some true := by
    unfold hasName
    rw [he]
    have := lookup_mem hd
    simpa only [List.any_cons, List.any_nil, Bool.or_false, Option.some.injEq] using this
  have hg : View.attr.go s f e = makeView s (.field e f) := by simp [View.attr.go, he]
  unfold View.attr
  simp only [if_neg hp]
  simp only [hn, hg]
  split <;> rfl

theorem attr_table {s : Session} {e : Expr} {columns : List (String × Data)} {f : String} {d : Data}
    (he : e.eval s = some (.table columns)) (hp : f.toList.head? ≠ some '_') (hd : columns.lookup f = some d) :
    (View.table e).attr s f = makeView s (.column e f) := by
  have hn : hasName s e f = some true := by
    unfold hasName
    rw [he]
    exact congrArg some (lookup_mem hd)
  unfold View.attr
  simp only [if_neg hp]
  simp only [hn]
  split <;> rfl

theorem walk_step {s : Session} {v : View} {d d' : Data} {p : Step} (hv : v.Shows s d) (hp : Proper p)
    (hc : ¬ IntoCell d p) (hd : d.step p = some d') :
    ∃ v' : View, (∀ ps, v.walk s (p :: ps) = v'.walk s ps) ∧ v'.Shows s d' ∧
      ∃ e, v.expr? = some e ∧ ∀ e', v'.expr? = some e' → e' = stepExpr d e p := by
  cases hv with
  | data x => cases p <;> cases hd
  | struct e l he =>
    have hev := stepExpr_eval (d₀ := .struct l) (p := p) he hc
    cases p with
    | attr f =>
      rcases l with _ | ⟨fields, _ | ⟨b, l⟩⟩
      · cases hd
      · obtain ⟨v', h1, h2, h3⟩ := makeView_shows (stepExpr_notFunction s (.struct [fields]) e (.attr f)) (hev.trans hd)
        refine ⟨v', fun ps => ?_, h2, e, rfl, h3⟩
        have : (View.struct e).attr s f = .ok v' := (attr_struct he hp hd).trans h1
        simp only [View.walk, this]
        rfl
      · cases hd
    | item i =>
      refine ⟨.struct (stepExpr (.struct l) e (.item i)), fun ps => rfl, ?_, e, rfl, fun e' h => by cases h; rfl⟩
      rw [hd] at hev
      have hx : ∃ x, d' = .struct [x] := by
        rcases l with _ | ⟨a, _ | ⟨b, l⟩⟩ <;> simp only [Data.step, Option.map_eq_some_iff] at hd <;>
          obtain ⟨x, -, rfl⟩ := hd <;> exact ⟨x, rfl⟩
      obtain ⟨x, rfl⟩ := hx
      exact .struct _ _ hev
  | cell e l he =>
    cases p with
    | attr f => cases hd
    | item i => exact (hc trivial).elim
  | table e l he =>
    have hev := stepExpr_eval (d₀ := .table l) (p := p) he hc
    cases p with
    | attr f =>
      obtain ⟨v', h1, h2, h3⟩ := makeView_shows (stepExpr_notFunction s (.table l) e (.attr f)) (hev.trans hd)
      refine ⟨v', fun ps => ?_, h2, e, rfl, h3⟩
      have : (View.table e).attr s f = .ok v' := (attr_table he hp hd).trans h1
      simp only [View.walk, this]
      rfl
    | item i => cases hd

/-! ### Theorems -/

/-- **C206** for all ways that do not lead into a cell: the attributes and elements of a view on a variable show the data at this place. -/
theorem view_shows_data_partial (s : Session) (x : String) (hx : x ∉ s.functions) (d d' : Data) (hd : s.vars x = some d) (path : List Step)
    (hp : ∀ p ∈ path, Proper p) (hc : NoCell d path) (hw : d.walk path = some d') :
    ∃ v, ((makeView s (.var x)).bind fun v => v.walk s path) = .ok v ∧ v.Shows s d' := by
  obtain ⟨v, hv, hs, -⟩ := makeView_shows (e := .var x) (d := d) (fun y h => by cases h; exact hx) hd
  rw [hv]
  show ∃ v' : View, v.walk s path = .ok v' ∧ v'.Shows s d'
  clear hv hd
  induction path generalizing v d with
  | nil => cases hw; exact ⟨v, rfl, hs⟩
  | cons p ps ih =>
    rw [Data.walk] at hw
    obtain ⟨d₁, h1, h2⟩ := Option.bind_eq_some_iff.1 hw
    obtain ⟨v', h3, h4, -⟩ := walk_step hs (hp p (by simp)) hc.1 h1
    rw [h3]
    exact ih d₁ (fun q hq => hp q (by simp [hq])) (hc.2 d₁ h1) h2 v' h4

/-- **C206**: a view shows the data that MATLAB has when it is looked at, not the data from when the view was made. -/
theorem view_shows_present_data_partial (s s' : Session) (x : String) (hx : x ∉ s.functions) (d d' d₂ : Data) (hd : s.vars x = some d)
    (path : List Step) (hp : ∀ p ∈ path, Proper p) (hc : NoCell d path) (hw : d.walk path = some d')
    (hd₂ : s'.vars x = some d₂) (hc₂ : NoCell d₂ path) (v : View) (e : Expr)
    (hv : ((makeView s (.var x)).bind fun v => v.walk s path) = .ok v) (he : v.expr? = some e) : e.eval s' = d₂.walk path := by
  obtain ⟨v₀, hv₀, hs, he₀⟩ := makeView_shows (e := .var x) (d := d) (fun y h => by cases h; exact hx) hd
  rw [hv₀] at hv
  replace hv : v₀.walk s path = .ok v := hv
  have key : ∀ (path : List Step) (v₀ : View) (d d₂ : Data) (e₀ : Expr), v₀.Shows s d → (∀ e', v₀.expr? = some e' → e' = e₀) →
      e₀.eval s' = some d₂ → (∀ p ∈ path, Proper p) → NoCell d path → d.walk path = some d' → NoCell d₂ path →
      v₀.walk s path = .ok v → e.eval s' = d₂.walk path := by
    intro path
    induction path with
    | nil =>
      intro v₀ d d₂ e₀ _ h2 h3 _ _ _ _ h4
      cases h4
      rw [h2 e he, h3]
      rfl
    | cons p ps ih =>
      intro v₀ d d₂ e₀ h1 h2 h3 hp hc hw hc₂ h4
      rw [Data.walk] at hw
      obtain ⟨d₁, g1, g2⟩ := Option.bind_eq_some_iff.1 hw
      obtain ⟨v', g3, g4, e₁, g5, g6⟩ := walk_step h1 (hp p (by simp)) hc.1 g1
      rw [g3] at h4
      obtain rfl := h2 _ g5
      have hev := stepExpr_eval (d₀ := d) h3 hc₂.1
      rw [Data.walk]
      rcases hst : d₂.step p with _ | d₃
      · rw [hst] at hev
        -- MATLAB raises for all further expressions
        have fail : ∀ (ps : List Step) (v' : View) (d₁ : Data) (e₁ : Expr), v'.Shows s d₁ → (∀ e', v'.expr? = some e' → e' = e₁) →
            e₁.eval s' = none → (∀ p ∈ ps, Proper p) → NoCell d₁ ps → d₁.walk ps = some d' → v'.walk s ps = .ok v → e.eval s' = none := by
          intro ps
          induction ps with
          | nil => intro v' d₁ e₁ _ k2 k3 _ _ _ k4; cases k4; rw [k2 e he, k3]
          | cons q qs ihq =>
            intro v' d₁ e₁ k1 k2 k3 kp kc kw k4
            rw [Data.walk] at kw
            obtain ⟨d₅, m1, m2⟩ := Option.bind_eq_some_iff.1 kw
            obtain ⟨v'', m3, m4, e₆, m5, m6⟩ := walk_step k1 (kp q (by simp)) kc.1 m1
            rw [m3] at k4
            obtain rfl := k2 _ m5
            refine ihq v'' d₅ _ m4 m6 ?_ (fun r hr => kp r (by simp [hr])) (kc.2 d₅ m1) m2 k4
            cases q <;> cases d₁ <;> simp [stepExpr, Expr.eval, k3]
        exact fail ps v' d₁ _ g4 g6 hev (fun r hr => hp r (by simp [hr])) (hc.2 d₁ g1) g2 h4
      · rw [hst] at hev
        exact ih v' d₁ d₃ _ g4 g6 hev (fun r hr => hp r (by simp [hr])) (hc.2 d₁ g1) g2 (hc₂.2 d₃ hst) h4
  exact key path v₀ d d₂ _ hs he₀ hd₂ hp hc hw hc₂ hv

theorem mapM_views {s : Session} {α : Type} (R : α → View → Prop) :
    ∀ (l : List α) (n : Nat) (f : Nat → Except PyErr View), (∀ k x, l[k]? = some x → ∃ w, f (n + k) = .ok w ∧ R x w) →
      ∃ vs, ((List.range' n l.length).mapM f) = .ok vs ∧ List.Forall₂ R l vs
  | [], n, f, _ => ⟨[], rfl, .nil⟩
  | x :: l, n, f, h => by
    obtain ⟨w, h1, h2⟩ := h 0 x rfl
    obtain ⟨vs, h3, h4⟩ := mapM_views (s := s) R l (n + 1) f (fun k y hy => by
      have := h (k + 1) y (by simpa using hy)
      rwa [show n + 1 + k = n + (k + 1) by omega])
    refine ⟨w :: vs, ?_, .cons h2 h4⟩
    rw [Nat.add_zero] at h1
    simp only [List.length_cons, List.range'_succ, List.mapM_cons, h1, h3]
    rfl

theorem item_shows {s : Session} {e : Expr} {l : List (List (String × Data))} (he : e.eval s = some (.struct l)) {k : Nat} {x}
    (hk : l[k]? = some x) : (View.struct (.item e (transformInt (k : ℤ)))).Shows s (.struct [x]) := by
  refine .struct _ _ ?_
  rw [show Expr.item e (transformInt (k : ℤ)) = stepExpr (.struct l) e (.item k) from rfl, stepExpr_eval he (fun h => by cases h)]
  rcases l with _ | ⟨a, _ | ⟨b, l⟩⟩
  · simp at hk
  · simp [Data.step, hk]
  · simp [Data.step, hk]

/-- **C206** and C100: iterating over a view on a struct array gives a view for each element, in order. -/
theorem struct_view_iterates_partial (s : Session) (v : View) (l : List (List (String × Data))) (hv : v.Shows s (.struct l)) :
    v.length s = .ok l.length ∧ ∃ vs, v.list s = .ok vs ∧ List.Forall₂ (fun x w => w.Shows s (.struct [x])) l vs := by
  cases hv with
  | struct e _ he =>
    have hl : (View.struct e).length s = .ok l.length := by simp [View.length, he]
    refine ⟨hl, ?_⟩
    simp only [View.list, hl, List.range_eq_range']
    refine mapM_views (s := s) (fun x w => w.Shows s (.struct [x])) l 0 _ (fun k x hk => ⟨_, rfl, ?_⟩)
    rw [Nat.zero_add]
    exact item_shows he hk

/-- **C206**: an attribute of a struct array that does not have one element is a generator of the attributes of the elements. -/
theorem attribute_of_array_partial (s : Session) (v : View) (l : List (List (String × Data))) (hv : v.Shows s (.struct l)) (h1 : l.length ≠ 1)
    (f : String) (hp : Proper (.attr f)) (hn : f ≠ "getdoc" ∧ f ≠ "next") (hf : ∀ x ∈ l, ∃ d, x.lookup f = some d) :
    ∃ g vs, v.attr s f = .ok g ∧ g.list s = .ok vs ∧
      List.Forall₂ (fun x w => ∃ d, x.lookup f = some d ∧ w.Shows s d) l vs := by
  cases hv with
  | struct e _ he =>
    have ha : (View.struct e).attr s f = .ok (.generator e l.length f) := by
      have hp' : f.toList.head? ≠ some '_' := hp
      unfold View.attr
      simp only [if_neg hp', if_neg (show ¬ (f = "getdoc" ∨ f = "next") by tauto)]
      simp [View.attr.go, he, h1]
    refine ⟨.generator e l.length f, ?_⟩
    obtain ⟨vs, h2, h3⟩ := mapM_views (s := s) (fun x w => ∃ d, x.lookup f = some d ∧ w.Shows s d) l 0
      (fun i : Nat => ((View.struct e).item s i).bind (View.attr s f)) (fun k x hk => by
        obtain ⟨d, hd⟩ := hf x (List.mem_of_getElem? hk)
        rw [Nat.zero_add]
        obtain ⟨w, g1, g2, -⟩ := walk_step (p := .attr f) (item_shows he hk) hp (fun h => by cases h) hd
        refine ⟨w, ?_, d, hd, g2⟩
        have := g1 []
        simp only [View.walk] at this
        show View.attr s f (View.struct (.item e (transformInt (k : ℤ)))) = .ok w
        rcases hh : View.attr s f (View.struct (.item e (transformInt (k : ℤ)))) with err | u
        · rw [hh] at this; cases this
        · rw [hh] at this; exact this)
    exact ⟨vs, ha, by simpa only [View.list, List.range_eq_range'] using h2, h3⟩

theorem indexText_code (i : ℤ) : ∃ c ∈ indexText i, 48 ≤ c.toNat := by
  unfold indexText
  split
  · exact ⟨'e', by simp, by decide⟩
  · rcases h : Nat.toDigits 10 (i + 1).toNat with _ | ⟨c, l⟩
    · exact absurd h Nat.toDigits_ne_nil
    · refine ⟨c, by simp, ?_⟩
      have := Nat.isDigit_of_mem_toDigits (b := 10) (by decide) (by decide) (show c ∈ Nat.toDigits 10 (i + 1).toNat by rw [h]; simp)
      simp only [Char.isDigit, Bool.and_eq_true, decide_eq_true_eq] at this
      exact this.1

/-- **C206** is false for the elements of cells, because the index is sent to MATLAB as a text: in a cell with up to 47 elements no element can be
reached, with any index, whatever MATLAB makes of texts as subscripts; iterating raises, too. -/
theorem cell_elements_refuted (s : Session) (v : View) (l : List Data) (hv : v.Shows s (.cell l)) (hl : l.length ≤ 47) :
    (∀ i : ℤ, v.item s i = .error matlabError) ∧ (l ≠ [] → v.list s = .error matlabError) := by
  cases hv with
  | cell e _ he =>
    have key : ∀ i : ℤ, (View.cell e).item s i = .error matlabError := by
      intro i
      obtain ⟨c, hc, h48⟩ := indexText_code i
      have : (Expr.cellItem e (indexText i)).eval s = none := by
        simp only [Expr.eval, he]
        rw [if_neg]
        simp only [Bool.and_eq_true, List.all_eq_true, decide_eq_true_eq, not_and, not_forall]
        exact fun _ => ⟨c, hc, by omega⟩
      simp [View.item, makeView, isFunction, this]
    refine ⟨key, fun h => ?_⟩
    obtain ⟨x, l, rfl⟩ := List.exists_cons_of_ne_nil h
    have hlen : (View.cell e).length s = .ok (x :: l).length := by simp [View.length, he]
    simp only [View.list, hlen, List.length_cons, List.range_succ_eq_map, List.mapM_cons, key]
    rfl

/-- **C206** is false for the elements of large cells, too: if MATLAB takes the codes of the characters of a text, each of the indices 0, …, 8 reaches
the element that is 48 behind, if there is one, and otherwise raises. -/
theorem large_cell_refuted (s : Session) (hs : s.codes = true) (v : View) (l : List Data) (hv : v.Shows s (.cell l)) (i : Nat) (hi : i < 9) :
    (∀ d, l[i + 48]? = some d → ∃ w, v.item s i = .ok w ∧ w.Shows s d) ∧ (l[i + 48]? = none → v.item s i = .error matlabError) := by
  cases hv with
  | cell e _ he =>
    have htext : ∃ c : Char, indexText i = [c] ∧ c.toNat = i + 49 := by
      have : ∀ i < 9, ∃ c : Char, indexText (i : Nat) = [c] ∧ c.toNat = i + 49 := by
        intro i hi
        match i, hi with
        | 0, _ => exact ⟨'1', by decide, by decide⟩
        | 1, _ => exact ⟨'2', by decide, by decide⟩
        | 2, _ => exact ⟨'3', by decide, by decide⟩
        | 3, _ => exact ⟨'4', by decide, by decide⟩
        | 4, _ => exact ⟨'5', by decide, by decide⟩
        | 5, _ => exact ⟨'6', by decide, by decide⟩
        | 6, _ => exact ⟨'7', by decide, by decide⟩
        | 7, _ => exact ⟨'8', by decide, by decide⟩
        | 8, _ => exact ⟨'9', by decide, by decide⟩
      exact this i hi
    obtain ⟨c, hc, hn⟩ := htext
    have heval : (Expr.cellItem e (indexText i)).eval s = l[i + 48]? := by
      simp only [Expr.eval, he, hc, hs]
      by_cases h : i + 49 ≤ l.length
      · simp [hn, h]
      · simp [hn, h]
        omega
    refine ⟨fun d hd => ?_, fun hd => ?_⟩
    · obtain ⟨w, h1, h2, -⟩ := makeView_shows (s := s) (e := .cellItem e (indexText i)) (fun x hx => by cases hx) (heval.trans hd)
      exact ⟨w, h1, h2⟩
    · simp [View.item, makeView, isFunction, heval.trans hd]

/-- **C206** is false for a variable that has the name of a function: the view is one on the function. -/
theorem function_name_refuted (s : Session) (x : String) (hx : x ∈ s.functions) :
    makeView s (.var x) = .ok (.function (.var x)) ∧ ∀ d, ¬ (View.function (.var x)).Shows s d := by
  refine ⟨?_, fun d h => by cases h⟩
  unfold makeView
  rw [if_pos]
  exact List.contains_iff_mem.2 hx

/-- **C206** is false for negative indices: `view[-k]` does not show anything, and all its attributes raise. -/
theorem negative_index_refuted (s : Session) (e : Expr) (i : ℤ) (hi : i < 0) :
    ∃ w, (View.struct e).item s i = .ok w ∧ (∀ d, ¬ w.Shows s d) ∧ ∀ f, ∃ err, w.attr s f = .error err := by
  have hev : (Expr.item e (transformInt i)).eval s = none := by
    simp only [Expr.eval, transformInt, if_pos hi, MIdx.literal]
    split <;> simp_all
  refine ⟨_, rfl, fun d h => ?_, fun f => ?_⟩
  · cases h with
    | struct _ l h => rw [hev] at h; cases h
  · have hn : hasName s (Expr.item e (transformInt i)) f = none := by simp [hasName, hev]
    have hg : View.attr.go s f (Expr.item e (transformInt i)) = .error matlabError := by simp [View.attr.go, hev]
    unfold View.attr
    simp only [hn, hg]
    split
    · exact ⟨_, rfl⟩
    · split <;> exact ⟨_, rfl⟩

/-- **C206** is false for fields that do not exist: `hasattr` does not return `False` but raises the exception of MATLAB. -/
theorem missing_field_refuted (s : Session) (v : View) (fields : List (String × Data)) (hv : v.Shows s (.struct [fields])) (f : String)
    (hp : Proper (.attr f)) (hn : f ≠ "getdoc" ∧ f ≠ "next") (hf : fields.lookup f = none) : v.attr s f = .error matlabError := by
  cases hv with
  | struct e _ he =>
    have hp' : f.toList.head? ≠ some '_' := hp
    unfold View.attr
    simp only [if_neg hp', if_neg (show ¬ (f = "getdoc" ∨ f = "next") by tauto)]
    simp [View.attr.go, he, makeView, isFunction, Expr.eval, hf]

/-! ### Examples -/

/-- A struct array of two tuning runs, each with the struct of its analysis, and a cell. -/
def session : Session where
  vars := fun x => if x = "runs" then
    some (.struct [[("ana", .struct [[("x", .other 1)]]), ("log", .cell [.other 7])], [("ana", .struct [[("x", .other 2)]]), ("log", .cell [])]])
    else none
  functions := ["sin"]
  codes := true

example : "runs" ∉ session.functions ∧ (∀ p ∈ [Step.item 1, .attr "ana", .attr "x"], Proper p) ∧
    ∃ d, session.vars "runs" = some d ∧ NoCell d [.item 1, .attr "ana", .attr "x"] ∧
      d.walk [.item 1, .attr "ana", .attr "x"] = some (.other 2) := by
  refine ⟨by decide, ?_, _, rfl, ?_, rfl⟩
  · simp only [List.mem_cons, List.not_mem_nil, or_false]
    rintro p (rfl | rfl | rfl)
    · trivial
    · show "ana".toList.head? ≠ some '_'
      decide
    · show "x".toList.head? ≠ some '_'
      decide
  · refine ⟨id, fun d h => ?_⟩
    cases h
    refine ⟨id, fun d h => ?_⟩
    cases h
    refine ⟨id, fun d h => ?_⟩
    cases h
    trivial

example : (View.cell (.field (.item (.var "runs") (transformInt 0)) "log")).Shows session (.cell [.other 7]) := .cell _ _ rfl

example : (View.struct (.var "runs")).Shows session (.struct [[("ana", .struct [[("x", .other 1)]]), ("log", .cell [.other 7])],
    [("ana", .struct [[("x", .other 2)]]), ("log", .cell [])]]) := .struct _ _ rfl

end Qtune.Matlab.Views
