import Verif.Package.ImportModel
import Verif.Package.ImportSpec

/-! # Lemmas about imports -/

namespace Qtune.Package

/-- The position of a module in an order in which all modules can be imported. -/
def rank : Mod → Nat
  | .util => 0 | .mat2py => 0 | .storage => 1 | .experiment => 2 | .kalman_gradient => 2 | .gradient => 3 | .evaluator => 3 | .basic_dqd => 3
  | .solver => 4 | .sm => 4 | .parameter_tuner => 5 | .kalman_heuristics => 5 | .autotuner => 6 | .history => 7 | .gui => 8 | .sm_tune_qqd => 8

def good (m : Mod) : Bool := !(broken.contains m)

def binds : Stmt → List String
  | .lib ns => ns
  | .ext _ ns => ns
  | .imp _ => ["qtune"]
  | .names _ ns => ns
  | .sub _ n => [n]
  | .define n => [n]
  | _ => []

def allNames (m : Mod) : List String := (body m).flatMap binds

def dep (m k : Mod) : Bool := decide (rank k < rank m) && good k && decide (k ≠ .gui)

/-- The check of a module: names are bound before they are used, and imports go down in rank. -/
def chk (m : Mod) : List Stmt → List String → List Mod → Bool
  | [], _, _ => good m
  | .lib ns :: cs, b, l => chk m cs (b ++ ns) l
  | .ext _ ns :: cs, b, l => chk m cs (b ++ ns) l
  | .imp k :: cs, b, l => dep m k && chk m cs (b ++ ["qtune"]) (k :: l)
  | .names k ns :: cs, b, l =>
    decide (rank k < rank m) && decide (k ≠ .gui) &&
      (if good k then ns.all (fun n => (allNames k).contains n) && chk m cs (b ++ ns) (k :: l) else !good m)
  | .sub k n :: cs, b, l => dep m k && chk m cs (b ++ [n]) (k :: l)
  | .define n :: cs, b, l => chk m cs (b ++ [n]) l
  | .use n :: cs, b, l => b.contains n && chk m cs b l
  | .attr k n :: cs, b, l =>
    if b.contains "qtune" then l.contains k && (allNames k).contains n && chk m cs b l else !good m
  | .magic :: cs, b, l => decide (m = .gui) && chk m cs b l

theorem chk_body (m : Mod) : chk m (body m) [] [] = true := by cases m <;> decide +kernel

def Fine (env : Env) (m : Mod) : Prop := (∀ p, Needs m p → env.installed p = true) ∧ (m = .gui → env.ipython = true)

def Cause (env : Env) (m : Mod) (e : Err) : Prop :=
  (∃ p, e = .notInstalled p ∧ Needs m p ∧ env.installed p = false) ∨ (e = .attributeError ∧ m = .gui ∧ env.ipython = false) ∨
    (e = .nameError "qtune" ∧ good m = false)

def Inv (env : Env) (P : Mod → Prop) (s : State) : Prop :=
  ∀ k ns, ¬ P k → s.mods k = some ns → ns = allNames k ∧ s.attrs k = true ∧ good k = true ∧ Fine env k

structure Keeps (P : Mod → Prop) (s s' : State) : Prop where
  same : ∀ k, P k → s'.mods k = s.mods k
  more : ∀ k, (s.mods k).isSome → (s'.mods k).isSome

theorem Keeps.refl (P : Mod → Prop) (s : State) : Keeps P s s := ⟨fun _ _ => rfl, fun _ h => h⟩

theorem Keeps.trans {P : Mod → Prop} {s s' s'' : State} (h : Keeps P s s') (h' : Keeps P s' s'') : Keeps P s s'' :=
  ⟨fun k hk => (h'.same k hk).trans (h.same k hk), fun k hk => h'.more k (h.more k hk)⟩

def ImportOk (env : Env) (P : Mod → Prop) (m : Mod) (s : State) (r : State × Option Err) : Prop :=
  Inv env P r.1 ∧ Keeps P s r.1 ∧
    ((r.2 = none ∧ good m = true ∧ Fine env m ∧ r.1.mods m = some (allNames m)) ∨ ∃ e, r.2 = some e ∧ Cause env m e)

/-- `c` imports `k`. -/
def Stmt.imports (k : Mod) (c : Stmt) : Prop := c = .imp k ∨ (∃ ns, c = .names k ns) ∨ ∃ n, c = .sub k n

theorem imports_of_mem {m k : Mod} {c : Stmt} (hc : c ∈ body m) (hk : c.imports k) : Imports m k := by
  rcases hk with rfl | ⟨ns, rfl⟩ | ⟨n, rfl⟩
  · exact Or.inl hc
  · exact Or.inr (Or.inl ⟨ns, hc⟩)
  · exact Or.inr (Or.inr ⟨n, hc⟩)

theorem bind_mods (s : State) (m : Mod) (ns b : List String) (h : s.mods m = some b) : (s.bind m ns).mods m = some (b ++ ns) := by
  simp [State.bind, h]

theorem bind_mods_other (s : State) {m k : Mod} (ns : List String) (h : k ≠ m) : (s.bind m ns).mods k = s.mods k := by
  simp [State.bind, h]

theorem bind_inv {env : Env} {P : Mod → Prop} {s : State} {m : Mod} (ns : List String) (hm : P m) (h : Inv env P s) :
    Inv env P (s.bind m ns) := by
  intro k ns' hk hs
  have hne : k ≠ m := fun he => hk (he ▸ hm)
  rw [bind_mods_other s ns hne] at hs
  exact h k ns' hk hs

theorem bind_more (s : State) (m : Mod) (ns : List String) (k : Mod) (h : (s.mods k).isSome) : ((s.bind m ns).mods k).isSome := by
  by_cases hk : k = m
  · subst hk; simp [State.bind, h]
  · rw [bind_mods_other s ns hk]; exact h

/-- What the statements of a module do. -/
structure BodyOk (env : Env) (P : Mod → Prop) (m : Mod) (cs : List Stmt) (b : List String) (s : State) (r : State × Option Err) : Prop where
  inv : Inv env (fun k => P k ∨ k = m) r.1
  same : ∀ k, P k → k ≠ m → r.1.mods k = s.mods k
  more : ∀ k, (s.mods k).isSome → (r.1.mods k).isSome
  result : (r.2 = none ∧ good m = true ∧ r.1.mods m = some (b ++ cs.flatMap binds) ∧ (∀ p ns, Stmt.ext p ns ∈ cs → env.installed p = true) ∧
      (∀ k, ∀ c ∈ cs, c.imports k → Fine env k) ∧ (Stmt.magic ∈ cs → env.ipython = true)) ∨ ∃ e, r.2 = some e ∧ Cause env m e

theorem cause_up {env : Env} {m k : Mod} {e : Err} (hi : Imports m k) (hg : k ≠ .gui) (hb : good k = false → good m = false)
    (h : Cause env k e) : Cause env m e := by
  rcases h with ⟨p, h1, h2, h3⟩ | ⟨_, h2, _⟩ | ⟨h1, h2⟩
  · exact Or.inl ⟨p, h1, .there hi h2, h3⟩
  · exact absurd h2 hg
  · exact Or.inr (Or.inr ⟨h1, hb h2⟩)

/-- A statement that binds names and does nothing else. -/
theorem step_bind {env : Env} {imp : Mod → State → State × Option Err} {P : Mod → Prop} {m : Mod} {c : Stmt} {cs : List Stmt} {b ns : List String}
    {s s₁ : State} (hex : exec env imp m s c = (s₁.bind m ns, none)) (hns : binds c = ns)
    (hs₁ : ∀ k, P k → s₁.mods k = s.mods k) (hmore : ∀ k, (s.mods k).isSome → (s₁.mods k).isSome)
    (hext : ∀ p ns, c = .ext p ns → env.installed p = true) (himp : ∀ k, c.imports k → Fine env k) (hmag : c ≠ .magic)
    (hrec : BodyOk env P m cs (b ++ ns) (s₁.bind m ns) (execAll env imp m cs (s₁.bind m ns))) :
    BodyOk env P m (c :: cs) b s (execAll env imp m (c :: cs) s) := by
  have he : execAll env imp m (c :: cs) s = execAll env imp m cs (s₁.bind m ns) := by
    simp only [execAll, hex]
  rw [he]
  refine ⟨hrec.inv, fun k hk hkm => ?_, fun k hk => hrec.more k (bind_more _ _ _ _ (hmore k hk)), ?_⟩
  · rw [hrec.same k hk hkm, bind_mods_other _ _ hkm, hs₁ k hk]
  · rcases hrec.result with ⟨h1, h2, h3, h4, h5, h6⟩ | h
    · refine Or.inl ⟨h1, h2, ?_, ?_, ?_, ?_⟩
      · rw [h3, List.flatMap_cons, hns, List.append_assoc]
      · intro p ns' hm
        rcases List.mem_cons.1 hm with hm | hm
        · exact hext p ns' hm.symm
        · exact h4 p ns' hm
      · intro k c' hm hk
        rcases List.mem_cons.1 hm with hm | hm
        · exact himp k (hm ▸ hk)
        · exact h5 k c' hm hk
      · intro hm
        rcases List.mem_cons.1 hm with hm | hm
        · exact absurd hm.symm hmag
        · exact h6 hm
    · exact Or.inr h

/-- A statement that raises. -/
theorem step_raise {env : Env} {imp : Mod → State → State × Option Err} {P : Mod → Prop} {m : Mod} {c : Stmt} {cs : List Stmt} {b : List String}
    {s s₁ : State} {e : Err} (hex : exec env imp m s c = (s₁, some e)) (hinv : Inv env (fun k => P k ∨ k = m) s₁)
    (hs₁ : ∀ k, P k → s₁.mods k = s.mods k) (hmore : ∀ k, (s.mods k).isSome → (s₁.mods k).isSome) (hc : Cause env m e) :
    BodyOk env P m (c :: cs) b s (execAll env imp m (c :: cs) s) := by
  have he : execAll env imp m (c :: cs) s = (s₁, some e) := by simp only [execAll, hex]
  rw [he]
  exact ⟨hinv, fun k hk _ => hs₁ k hk, hmore, Or.inr ⟨e, rfl, hc⟩⟩

/-- A statement without effect. -/
theorem step_skip {env : Env} {imp : Mod → State → State × Option Err} {P : Mod → Prop} {m : Mod} {c : Stmt} {cs : List Stmt} {b : List String}
    {s : State} (hex : exec env imp m s c = (s, none)) (hns : binds c = [])
    (hext : ∀ p ns, c ≠ .ext p ns) (himp : ∀ k, ¬ c.imports k) (hmag : c = .magic → env.ipython = true)
    (hrec : BodyOk env P m cs b s (execAll env imp m cs s)) : BodyOk env P m (c :: cs) b s (execAll env imp m (c :: cs) s) := by
  have he : execAll env imp m (c :: cs) s = execAll env imp m cs s := by simp only [execAll, hex]
  rw [he]
  refine ⟨hrec.inv, hrec.same, hrec.more, ?_⟩
  rcases hrec.result with ⟨h1, h2, h3, h4, h5, h6⟩ | h
  · refine Or.inl ⟨h1, h2, ?_, ?_, ?_, ?_⟩
    · rw [h3, List.flatMap_cons, hns, List.nil_append]
    · intro p ns' hm
      rcases List.mem_cons.1 hm with hm | hm
      · exact absurd hm.symm (hext p ns')
      · exact h4 p ns' hm
    · intro k c' hm hk
      rcases List.mem_cons.1 hm with hm | hm
      · exact absurd (hm ▸ hk) (himp k)
      · exact h5 k c' hm hk
    · intro hm
      rcases List.mem_cons.1 hm with hm | hm
      · exact hmag hm.symm
      · exact h6 hm
  · exact Or.inr h

theorem execAll_spec (env : Env) (imp : Mod → State → State × Option Err) (P : Mod → Prop) (m : Mod) (hP : ∀ k, P k → rank m < rank k)
    (himp : ∀ k s, rank k < rank m → Inv env (fun k => P k ∨ k = m) s → ImportOk env (fun k => P k ∨ k = m) k s (imp k s)) :
    ∀ (cs : List Stmt) (b : List String) (l : List Mod) (s : State), (∀ c ∈ cs, c ∈ body m) → chk m cs b l = true →
      Inv env (fun k => P k ∨ k = m) s → s.mods m = some b → (∀ k ∈ l, rank k < rank m ∧ (s.mods k).isSome) →
      BodyOk env P m cs b s (execAll env imp m cs s) := by
  have hne : ∀ k, P k → k ≠ m := fun k hk he => absurd (hP k hk) (by subst he; omega)
  intro cs
  induction cs with
  | nil =>
    intro b l s _ hc hinv hm _
    exact ⟨hinv, fun _ _ _ => rfl, fun _ h => h, Or.inl ⟨rfl, hc, by simpa [execAll] using hm, by simp, by simp, by simp⟩⟩
  | cons c cs ih =>
    intro b l s hsub hc hinv hm hl
    have hsub' : ∀ c ∈ cs, c ∈ body m := fun c h => hsub c (List.mem_cons_of_mem _ h)
    have hbody := hsub c List.mem_cons_self
    have hasm : ∀ n, s.has m n = b.contains n := fun n => by simp [State.has, hm]
    -- a statement that binds names after reaching the state s₁
    have next : ∀ (s₁ : State) (ns : List String) (l' : List Mod), exec env imp m s c = (s₁.bind m ns, none) → binds c = ns →
        (∀ p ns, c = .ext p ns → env.installed p = true) → (∀ k, c.imports k → Fine env k) → c ≠ .magic →
        Inv env (fun k => P k ∨ k = m) s₁ → Keeps (fun k => P k ∨ k = m) s s₁ → chk m cs (b ++ ns) l' = true →
        (∀ k ∈ l', rank k < rank m ∧ (s₁.mods k).isSome) → BodyOk env P m (c :: cs) b s (execAll env imp m (c :: cs) s) := by
      intro s₁ ns l' hex hns hext himp' hmag hinv₁ hk₁ hchk hl'
      refine step_bind hex hns (fun k hk => hk₁.same k (Or.inl hk)) hk₁.more hext himp' hmag ?_
      refine ih _ l' _ hsub' hchk (bind_inv ns (Or.inr rfl) hinv₁) (bind_mods _ _ _ _ ((hk₁.same m (Or.inr rfl)).trans hm)) ?_
      exact fun k hk => ⟨(hl' k hk).1, bind_more _ _ _ _ (hl' k hk).2⟩
    -- an import of k
    have go : ∀ k, c.imports k → rank k < rank m → k ≠ .gui → (good k = false → good m = false) →
        ∀ (ns : List String), binds c = ns →
        (∀ s₁, imp k s = (s₁, none) → s₁.mods k = some (allNames k) → exec env imp m s c = (s₁.bind m ns, none)) →
        (∀ s₁ e, imp k s = (s₁, some e) → exec env imp m s c = (s₁, some e)) → (good k = true → chk m cs (b ++ ns) (k :: l) = true) →
        (∀ p ns, c ≠ .ext p ns) → (∀ k', c.imports k' → k' = k) → c ≠ .magic →
        BodyOk env P m (c :: cs) b s (execAll env imp m (c :: cs) s) := by
      intro k hck hk hgui hgood ns hns hok herr hchk hext huniq hmag
      obtain ⟨h1, h2, h3⟩ := himp k s hk hinv
      rcases hr : imp k s with ⟨s₁, o⟩
      rw [hr] at h1 h2 h3
      rcases h3 with ⟨h3, hg, hf, hnm⟩ | ⟨e, h3, hcause⟩
      · simp only at h3 hnm
        subst h3
        refine next s₁ ns (k :: l) (hok s₁ hr hnm) hns (fun p ns' h => absurd h (hext p ns')) (fun k' hk' => (huniq k' hk') ▸ hf) hmag h1 h2
          (hchk hg) ?_
        intro k' hk'
        rcases List.mem_cons.1 hk' with rfl | hk'
        · exact ⟨hk, by rw [hnm]; rfl⟩
        · exact ⟨(hl k' hk').1, h2.more k' (hl k' hk').2⟩
      · simp only at h3
        subst h3
        exact step_raise (herr s₁ e hr) h1 (fun k hk => h2.same k (Or.inl hk)) h2.more
          (cause_up (imports_of_mem hbody hck) hgui hgood hcause)
    cases c with
    | lib ns => exact next s ns l rfl rfl (by simp) (by simp [Stmt.imports]) (by simp) hinv (.refl _ _) hc hl
    | ext p ns =>
      by_cases hp : env.installed p = true
      · exact next s ns l (by simp [exec, hp]) rfl (by rintro _ _ ⟨⟩; exact hp) (by simp [Stmt.imports]) (by simp) hinv (.refl _ _) hc hl
      · have hp' : env.installed p = false := by simpa using hp
        exact step_raise (s₁ := s) (e := .notInstalled p) (by simp [exec, hp']) hinv (fun _ _ => rfl) (fun _ h => h)
          (Or.inl ⟨p, rfl, .here hbody, hp'⟩)
    | imp k =>
      simp only [chk, dep, Bool.and_eq_true, decide_eq_true_eq] at hc
      refine go k (Or.inl rfl) hc.1.1.1 hc.1.2 (by simp [hc.1.1.2]) ["qtune"] rfl ?_ ?_ (fun _ => hc.2) (by simp) (by simp [Stmt.imports]) (by simp)
      · intro s₁ h _; simp only [exec, h]
      · intro s₁ e h; simp only [exec, h]
    | names k ns =>
      simp only [chk, Bool.and_eq_true, decide_eq_true_eq] at hc
      obtain ⟨⟨hk, hgui⟩, hc⟩ := hc
      refine go k (Or.inr (Or.inl ⟨ns, rfl⟩)) hk hgui ?_ ns rfl ?_ ?_ ?_ (by simp) (by rintro k' (h | ⟨_, h⟩ | ⟨_, h⟩) <;> simp_all) (by simp)
      · intro hg
        simpa [hg] using hc
      · intro s₁ h hnm
        by_cases hg : good k = true
        · simp only [hg, if_true, Bool.and_eq_true, List.all_eq_true] at hc
          have hfind : (ns.find? fun n => !s₁.has k n) = none := by
            rw [List.find?_eq_none]
            intro n hn
            simp only [State.has, hnm, Option.getD_some, Bool.not_eq_true', Bool.not_eq_false]
            exact hc.1 n hn
          simp only [exec, h, hfind]
        · obtain ⟨_, _, h3⟩ := himp k s hk hinv
          rw [h] at h3
          rcases h3 with ⟨_, hg', _⟩ | ⟨e, h3, _⟩
          · exact absurd hg' hg
          · simp at h3
      · intro s₁ e h; simp only [exec, h]
      · intro hg
        simp only [hg, if_true, Bool.and_eq_true] at hc
        exact hc.2
    | sub k n =>
      simp only [chk, dep, Bool.and_eq_true, decide_eq_true_eq] at hc
      refine go k (Or.inr (Or.inr ⟨n, rfl⟩)) hc.1.1.1 hc.1.2 (by simp [hc.1.1.2]) [n] rfl ?_ ?_ (fun _ => hc.2) (by simp)
        (by rintro k' (h | ⟨_, h⟩ | ⟨_, h⟩) <;> simp_all) (by simp)
      · intro s₁ h _; simp only [exec, h]
      · intro s₁ e h; simp only [exec, h]
    | define n => exact next s [n] l rfl rfl (by simp) (by simp [Stmt.imports]) (by simp) hinv (.refl _ _) hc hl
    | use n =>
      simp only [chk, Bool.and_eq_true] at hc
      exact step_skip (by simp only [exec, hasm, hc.1, if_true]) rfl (by simp) (by simp [Stmt.imports]) (by simp) (ih b l s hsub' hc.2 hinv hm hl)
    | attr k n =>
      simp only [chk] at hc
      by_cases hq : b.contains "qtune" = true
      · rw [if_pos hq] at hc
        simp only [Bool.and_eq_true, List.contains_iff_mem] at hc
        obtain ⟨⟨hk, hn⟩, hc⟩ := hc
        obtain ⟨hr, hs⟩ := hl k hk
        obtain ⟨ns, hns⟩ := Option.isSome_iff_exists.1 hs
        have hnP : ¬ (P k ∨ k = m) := by
          rintro (h | h)
          · have := hP k h; omega
          · subst h; omega
        obtain ⟨h1, h2, _, _⟩ := hinv k ns hnP hns
        refine step_skip ?_ rfl (by simp) (by simp [Stmt.imports]) (by simp) (ih b l s hsub' hc hinv hm hl)
        have hhas : s.has k n = true := by simp [State.has, hns, h1, hn]
        simp only [exec, hasm, hq, if_true, h2, hhas, Bool.and_self]
      · rw [if_neg hq] at hc
        refine step_raise (s₁ := s) (e := .nameError "qtune") ?_ hinv (fun _ _ => rfl) (fun _ h => h) (Or.inr (Or.inr ⟨rfl, by simpa using hc⟩))
        simp only [exec, hasm, if_neg hq]
    | magic =>
      simp only [chk, Bool.and_eq_true, decide_eq_true_eq] at hc
      by_cases hi : env.ipython = true
      · exact step_skip (by simp [exec, hi]) rfl (by simp) (by simp [Stmt.imports]) (fun _ => hi) (ih b l s hsub' hc.2 hinv hm hl)
      · have hi' : env.ipython = false := by simpa using hi
        exact step_raise (s₁ := s) (e := .attributeError) (by simp [exec, hi']) hinv (fun _ _ => rfl) (fun _ h => h)
          (Or.inr (Or.inl ⟨rfl, hc.1, hi'⟩))

theorem magic_gui : Stmt.magic ∈ body .gui := by decide +kernel

theorem import_spec (env : Env) : ∀ (n : Nat) (m : Mod) (P : Mod → Prop) (s : State), rank m < n → (∀ k, P k → rank m < rank k) →
    Inv env P s → ImportOk env P m s (importM env n m s) := by
  intro n
  induction n with
  | zero => intro m P s h; omega
  | succ n ih =>
    intro m P s hn hP hinv
    have hmP : ¬ P m := fun h => absurd (hP m h) (by omega)
    have hne : ∀ k, P k → k ≠ m := fun k hk he => hmP (he ▸ hk)
    simp only [importM]
    by_cases hs : (s.mods m).isSome = true
    · rw [if_pos hs]
      obtain ⟨ns, hns⟩ := Option.isSome_iff_exists.1 hs
      obtain ⟨h1, _, h3, h4⟩ := hinv m ns hmP hns
      exact ⟨hinv, .refl _ _, Or.inl ⟨rfl, h3, h4, by rw [hns, h1]⟩⟩
    · rw [if_neg hs]
      have hs0 : s.mods m = none := by simpa using hs
      generalize hs₀ : ({ s with mods := fun k => if k = m then some [] else s.mods k } : State) = s₀
      have hm₀ : s₀.mods m = some [] := by rw [← hs₀]; simp
      have ho₀ : ∀ k, k ≠ m → s₀.mods k = s.mods k := fun k hk => by rw [← hs₀]; simp [hk]
      have ha₀ : s₀.attrs = s.attrs := by rw [← hs₀]
      have hinv₀ : Inv env (fun k => P k ∨ k = m) s₀ := by
        intro k ns hk hsk
        have hkm : k ≠ m := fun h => hk (Or.inr h)
        rw [ho₀ k hkm] at hsk
        rw [ha₀]
        exact hinv k ns (fun h => hk (Or.inl h)) hsk
      have key := execAll_spec env (importM env n) P m hP (fun k s' hk hi => ih k _ s' (by omega) (by
        rintro k' (h | rfl)
        · have := hP k' h; omega
        · exact hk) hi) (body m) [] [] s₀ (fun _ h => h) (chk_body m) hinv₀ hm₀ (by simp)
      rcases hr : execAll env (importM env n) m (body m) s₀ with ⟨s₁, o⟩
      rw [hr] at key
      have hsame : ∀ k, P k → s₁.mods k = s.mods k := fun k hk => (key.same k hk (hne k hk)).trans (ho₀ k (hne k hk))
      have hmore : ∀ k, k ≠ m → (s.mods k).isSome → (s₁.mods k).isSome := fun k hk h => key.more k (by rw [ho₀ k hk]; exact h)
      rcases key.result with ⟨h1, h2, h3, h4, h5, h6⟩ | ⟨e, h1, h2⟩
      · simp only at h1 h3
        subst h1
        have hfine : Fine env m := by
          constructor
          · intro p hp
            cases hp with
            | here h => exact h4 _ _ h
            | there hi hp =>
              rcases hi with h | ⟨ns, h⟩ | ⟨n, h⟩
              · exact (h5 _ _ h (Or.inl rfl)).1 p hp
              · exact (h5 _ _ h (Or.inr (Or.inl ⟨ns, rfl⟩))).1 p hp
              · exact (h5 _ _ h (Or.inr (Or.inr ⟨n, rfl⟩))).1 p hp
          · intro hg
            subst hg
            exact h6 magic_gui
        refine ⟨?_, ⟨hsame, ?_⟩, Or.inl ⟨rfl, h2, hfine, by simpa [allNames] using h3⟩⟩
        · intro k ns hk hsk
          by_cases hkm : k = m
          · subst hkm
            simp only at hsk
            rw [h3] at hsk
            refine ⟨by simpa [allNames] using hsk.symm, by simp, h2, hfine⟩
          · obtain ⟨g1, g2, g3⟩ := key.inv k ns (by rintro (h | h) <;> contradiction) hsk
            exact ⟨g1, by simpa [hkm] using g2, g3⟩
        · intro k hk
          have hkm : k ≠ m := fun h => hs (h ▸ hk)
          exact hmore k hkm hk
      · simp only at h1
        subst h1
        refine ⟨?_, ⟨?_, ?_⟩, Or.inr ⟨e, rfl, h2⟩⟩
        · intro k ns hk hsk
          have hkm : k ≠ m := by
            rintro rfl
            simp at hsk
          simp only [if_neg hkm] at hsk
          exact key.inv k ns (by rintro (h | h) <;> contradiction) hsk
        · intro k hk
          simp only [if_neg (hne k hk)]
          exact hsame k hk
        · intro k hk
          have hkm : k ≠ m := fun h => hs (h ▸ hk)
          simp only [if_neg hkm]
          exact hmore k hkm hk

theorem rank_lt (m : Mod) : rank m < 9 := by cases m <;> decide

theorem session_inv (env : Env) (depth : Nat) (hd : 9 ≤ depth) (ms : List Mod) : Inv env (fun _ => False) (session env depth ms) := by
  unfold session
  suffices h : ∀ s, Inv env (fun _ => False) s → Inv env (fun _ => False) (ms.foldl (fun s m => (importM env depth m s).1) s) from
    h _ (fun k ns _ h => by simp [State.new] at h)
  induction ms with
  | nil => exact fun _ h => h
  | cons m ms ih =>
    intro s hs
    exact ih _ (import_spec env depth m _ s (by have := rank_lt m; omega) (fun _ h => h.elim) hs).1

end Qtune.Package
