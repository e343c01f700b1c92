import Verif.EndToEnd.ToldRun
import Verif.EndToEnd.PropsLimitedSource
import Verif.EndToEnd.PropsAtLimit

/-! # A tuning that begins at a limit of the source of which the experiment does not know -/

namespace Qtune.EndToEnd

open Qtune.Tuner Qtune.Gradient Qtune.Autotuner

variable {n m : Nat}

/-- If all estimates are zero, the present voltages are suggested. -/
theorem flat_suggestion {S : Setup n m} (hS : S.Sound) {μ : Val × Int} {orth : Orth n} {lstsq : Newton.Lstsq (Fin n)}
    (hl : Newton.LstsqSpec lstsq) {E : Fin m → FD n} (hE : ∀ k, Done 0 (E k)) {q : Vec n} {t : OneTuner (FD n) n}
    (h : At S μ E q t) :
    Newton.suggest (fdI orth) lstsq [] t.solver =
      ({ t.solver with ests := List.ofFn E }, .ok fun i => some (some (q i))) := by
  have htj : Newton.tunedJacobian (fdI orth) [] t.solver = .ok none :=
    (Newton.tuned_jacobian_rows (fdI orth) [] t.solver).1 (by simp)
  have hask := Newton.ask_none (fdI orth) t.solver.gates none (t.solver.target.zip t.solver.ests) (by
    intro re hre _
    have hmem := (List.of_mem_zip hre).2
    rw [h.ests] at hmem
    obtain ⟨k, hk⟩ := (List.mem_ofFn' _ _).1 hmem
    rw [← hk]
    exact (hE k).silent none)
  have hsnd : (t.solver.target.zip t.solver.ests).map Prod.snd = t.solver.ests := List.map_snd_zip (by
    rw [h.target, h.ests]
    simp [Setup.target])
  have hest : t.solver.ests.map (fdI orth).estimate = List.ofFn fun _ : Fin m => some fun _ : Fin n => some (0 : ℝ) := by
    rw [h.ests, List.map_ofFn]
    congr 1
    funext k
    obtain ⟨C, hC⟩ := (hE k).est
    simp only [Function.comp_apply, fdI, hC]
    rfl
  have hconcat : Newton.concat (t.solver.ests.map (fdI orth).estimate) =
      .ok ((List.ofFn fun (_ : Fin m) (_ : Fin n) => (0 : ℝ)).map fun g i => some (g i)) := by
    have := Newton.concat_some ((List.ofFn fun (_ : Fin m) (_ : Fin n) => (0 : ℝ)).map fun g i => some (g i))
      (by simpa using hS.nonempty)
    rw [hest, ← this]
    simp
  have hlen : t.solver.target.length = m := by rw [h.target]; simp [Setup.target]
  obtain ⟨x, hx, hls⟩ := hl t.solver.gates (List.ofFn fun (_ : Fin m) (_ : Fin n) => (0 : ℝ))
    (t.solver.target.map fun r => Newton.requiredDiff r.desired (t.solver.values.val r.name)) (by simp [hlen])
  have hx0 : ∀ i, x i = 0 := by
    have h1 := hls.shortest 0 (by
      unfold Newton.residual
      congr 1
      apply List.ext_getElem
      · simp
      · intro i h1 h2
        simp [Newton.change])
    unfold Newton.lengthSq at h1
    simp only [Pi.zero_apply, ne_eq, OfNat.ofNat_ne_zero, not_false_eq_true, zero_pow, Finset.sum_const_zero] at h1
    have h2 := (Finset.sum_eq_zero_iff_of_nonneg fun i _ => sq_nonneg (x i)).1 (le_antisymm h1 (Finset.sum_nonneg fun i _ => sq_nonneg (x i)))
    intro i
    have := h2 i (by rw [h.gates]; simpa using hS.gates_all i)
    simpa using this
  unfold Newton.suggest
  rw [htj]
  simp only [hask, hsnd]
  unfold Newton.newtonStep
  simp only [hconcat]
  rw [if_neg (by simp [hlen]), hx]
  simp only [h.pos, hx0]
  congr 1
  · rw [← h.ests]
  · congr 1
    funext i
    rw [if_pos (by rw [h.gates]; exact hS.gates_all i)]
    change some (some (q i + 0)) = _
    rw [add_zero]

/-- What holds in all states that are reached. -/
theorem iterates_stay {W Y V P C : Type} {H : Autotuner.Hierarchy W Y V P C} {Q : Autotuner.State W Y V → Prop}
    (hstep : ∀ s, Q s → ∃ s', (iterate H (.ok ()) s).1 = s' ∧ (iterate H (.ok ()) s).2.2 = .ok () ∧ Q s') :
    ∀ N s, Q s → ∃ s', iterates H N s = .ok s' ∧ Q s'
  | 0, s, h => ⟨s, rfl, h⟩
  | N + 1, s, h => by
    obtain ⟨s₁, h1, h2, h3⟩ := hstep s h
    obtain ⟨s', h4, h5⟩ := iterates_stay hstep N s₁ h3
    refine ⟨s', ?_, h5⟩
    unfold iterates
    rcases hi : iterate H (.ok ()) s with ⟨a, ev, r⟩
    rw [hi] at h1 h2
    simp only at h1 h2
    subst h1 h2
    exact h4

/-- **C209 is false for a tuning that begins at a limit**, the experiment reads back what it has been told.  For every affine
device with one gate there are a start and limits with voltages in between that meet the set point, so that the tuning never
comes to an end.  The gate does not move although the estimator believes it does, so the estimate of the gradient is zero
and the solver suggests the same voltages forever, without any exception. -/
theorem told_start_at_limit_refuted {S : Setup 1 1} (hS : S.Valid) {tol : ℝ} (htol : (S.row 0).tolerance = some tol)
    {orth : Orth 1} (ho : OrthSpec orth) {lstsq : Newton.Lstsq (Fin 1)} (hl : Newton.LstsqSpec lstsq) :
    ∃ c z lo hi : Vec 1, (∀ i, lo i < hi i) ∧ Between lo hi c ∧ Between lo hi z ∧
      S.response 0 z / S.scale 0 = S.desired 0 ∧
      ∀ (B : ℝ) (t : OneTuner (FD 1) 1), InitialWithin S c B t → t.maxStep = none → ∀ N, ∃ s',
        iterates (sourced (fdI orth) lstsq S.outs (clip lo hi) false) N (fresh t (volts c)) = .ok s' ∧
        isComplete (sourced (fdI orth) lstsq S.outs (clip lo hi) false) s' = false := by
  -- the direction of the first request
  obtain ⟨u, hu⟩ : ∃ u, orth S.gates [0] = some u := Option.ne_none_iff_exists'.1
    (ho.complete S.gates [0] (fun _ => 1) (fun i hi => absurd (hS.gates_all i) hi) (fun v hv => by
      rw [List.mem_singleton] at hv
      subst hv
      simp [Gradient.inner]) (fun h => one_ne_zero (congrFun h 0)))
  have hu1 : u 0 = 1 ∨ u 0 = -1 := by
    have := ho.unit _ _ _ hu
    simp only [Gradient.inner, Fin.sum_univ_one] at this
    exact mul_self_eq_one_iff.1 this
  -- the target
  have hg : S.grad 0 0 / S.scale 0 ≠ 0 := by
    refine div_ne_zero (fun h0 => hS.independent.ne_zero 0 ?_) (hS.scale 0).2
    funext i
    fin_cases i
    exact h0
  set g := S.grad 0 0 / S.scale 0 with hgdef
  have haff := Setup.scaled_affine hS.affine 0
  have hdiff : ∀ a b : Vec 1, S.scaled 0 a - S.scaled 0 b = g * (a 0 - b 0) := by
    intro a b
    rw [haff.sub a b]
    simp [hgdef]
  obtain ⟨z, hz⟩ : ∃ z : Vec 1, S.scaled 0 z = S.desired 0 := by
    refine ⟨fun _ => (S.desired 0 - S.scaled 0 0) / g, ?_⟩
    have := hdiff (fun _ => (S.desired 0 - S.scaled 0 0) / g) 0
    simp only [Pi.zero_apply, sub_zero] at this
    rw [mul_div_cancel₀ _ hg] at this
    linarith
  have htp := hS.tolerance 0 tol htol
  obtain ⟨δ, hδ, hδt⟩ : ∃ δ : ℝ, 0 < δ ∧ tol ≤ |g| * δ :=
    ⟨tol / |g|, div_pos htp (abs_pos.2 hg), by rw [mul_div_cancel₀ _ (abs_ne_zero.2 hg)]⟩
  let c : Vec 1 := fun i => z i + δ * u i
  let lo : Vec 1 := fun i => min (z i - u i) (c i)
  let hi : Vec 1 := fun i => max (z i - u i) (c i)
  let app : Vec 1 → Vec 1 := fun q i => max (lo i) (min (hi i) (q i))
  have happ : ∀ q, clip lo hi (volts q) = volts (app q) := fun q => rfl
  have hfin : ∀ i : Fin 1, i = 0 := fun i => Subsingleton.elim _ _
  have hnot : ¬ SetPointsMet S c := by
    intro h
    have h1 : |S.desired 0 - S.scaled 0 c| < tol := h 0 tol htol
    rw [← hz, hdiff] at h1
    have : z 0 - c 0 = -(δ * u 0) := by simp [c]
    rw [this, abs_mul, abs_neg, abs_mul, abs_of_pos hδ] at h1
    have hau : |u 0| = 1 := by rcases hu1 with h | h <;> simp [h]
    rw [hau, mul_one] at h1
    linarith
  have hcc : app c = c := by
    funext i
    simp only [app]
    rw [min_eq_right (le_max_right _ _), max_eq_right (min_le_right _ _)]
  have hclip : ∀ x : Vec 1, (∃ a : ℝ, 0 < a ∧ x 0 = u 0 * a) → app (c + x) = c := by
    rintro x ⟨a, ha, hxa⟩
    funext i
    obtain rfl := hfin i
    simp only [app, lo, hi, c, Pi.add_apply, hxa]
    rcases hu1 with h | h <;> rw [h]
    · rw [max_eq_right (a := z 0 - 1) (by linarith), min_eq_left (a := z 0 - 1) (by linarith),
        min_eq_left (by linarith), max_eq_right (by linarith)]
    · rw [max_eq_left (a := z 0 - -1) (by linarith), min_eq_right (a := z 0 - -1) (by linarith),
        min_eq_right (by linarith), max_eq_left (by linarith)]
  refine ⟨c, z, lo, hi, ?_, fun i => ⟨min_le_right _ _, le_max_right _ _⟩, ?_, hz, ?_⟩
  · intro i
    obtain rfl := hfin i
    simp only [lo, hi, c, lt_max_iff, min_lt_iff]
    rcases hu1 with h | h <;> rw [h]
    · exact .inr (.inl (by linarith))
    · exact .inl (.inr (by linarith))
  · intro i
    obtain rfl := hfin i
    simp only [lo, hi, c, min_le_iff, le_max_iff]
    rcases hu1 with h | h <;> rw [h]
    · exact ⟨.inl (by linarith), .inr (by linarith)⟩
    · exact ⟨.inr (by linarith), .inl (by linarith)⟩
  intro B t ht hmax N
  set H := sourced (fdI orth) lstsq S.outs (clip lo hi) false with hH
  set S' := S.behind (clip lo hi) app with hS'def
  have hS' : S'.Sound := behind_sound hS.toSound happ
  obtain ⟨start, eps, hstart, heps, hests⟩ := ht.ests
  have heta : ∀ {Y : Type} (f : Fin 1 → Y), f = fun _ => f 0 := fun f => by
    funext i
    rw [hfin i]
  have hbase : Base S' (t.maxStep, t.maxNumber) (fun k => FD.new (start k) (eps k) false) t :=
    ⟨ht.target, hests, ht.gates, ht.index, rfl, rfl, ht.queued, ht.lastIndex⟩
  -- the first evaluation
  have hfirst : ∀ k (y : ℝ), ∃ e', (fdI orth).update (volts c) (some (S'.scaled k c)) (some y)
      (FD.new (start k) (eps k) false) = (e', .ok ()) ∧
      Col B none (S'.scaled k) c (fun j : Fin 0 => (j.elim0 : Vec 1)) e' := fun k y =>
    Col.start (f := S'.scaled k) one_ne_zero c (eps k) (fun i => (heps k i).1) (fun i => (heps k i).2) (fun h hh => by cases hh)
      (start k) (hstart k) y
  obtain ⟨y₁, t₁, b₁, hev₁, -, hAt₁, hb₁⟩ := evaluation (lstsq := lstsq) (I := fdI orth) hS' hbase c
    (fun k y _ => by obtain ⟨e', he', -⟩ := hfirst k y; exact ⟨e', he'⟩)
  have hmiss : ∀ q, app q = c → ¬ ∀ k, ∀ tol, (S'.row k).tolerance = some tol → |S'.desired k - S'.scaled k q| < tol := by
    intro q hq h
    apply hnot
    intro k tol' hk
    have := h k tol' hk
    change |S.desired k - S.response k (app q) / S.scale k| < tol' at this
    rwa [hq] at this
  have hb₁' : b₁ = false := by
    rw [← Bool.not_eq_true]
    exact fun h => hmiss c hcc (hb₁.1 h)
  subst hb₁'
  obtain ⟨e₁, he₁, hcol₁⟩ := hfirst 0 (y₁ 0)
  rw [heta fun k => ((fdI orth).update (volts c) (some (S'.scaled k c)) (some (y₁ k)) (FD.new (start k) (eps k) false)).1, he₁] at hAt₁
  -- the request
  obtain ⟨x, hx⟩ : ∃ x : Vec 1, x = fun i => u i * e₁.eps i := ⟨_, rfl⟩
  have happx : app (c + x) = c := hclip x ⟨e₁.eps 0, hcol₁.heps 0, by rw [hx]⟩
  obtain ⟨e₂, he₂⟩ : ∃ e₂ : FD 1, e₂ = { e₁ with requested := e₁.requested ++ [fun i => some ((c + x) i)] } := ⟨_, rfl⟩
  have hreq : e₁.require orth S'.gates = (e₂, .ok (some fun i => some ((c + x) i))) := by
    obtain ⟨s₀, s, hst⟩ := hcol₁.stored
    rw [List.ofFn_zero] at hst
    have hgates : ∀ i : Fin 1, i ∈ S'.gates := hS'.gates_all
    have hu' : orth S'.gates [0] = some u := hu
    simp [FD.require, hcol₁.pos, hcol₁.est, hcol₁.sym, nextPoint, hst, hu', Gradient.request, hgates, he₂, hx]
  have hcol₂ : Col B none (S'.scaled 0) c (fun j : Fin 0 => (j.elim0 : Vec 1)) e₂ := by
    rw [he₂]
    exact ⟨hcol₁.pos, hcol₁.sym, hcol₁.heps, hcol₁.small, hcol₁.same, hcol₁.est, hcol₁.stored⟩
  have hsug : Newton.suggest (fdI orth) lstsq [] t₁.solver =
      ({ t₁.solver with ests := List.ofFn fun _ : Fin 1 => e₂ }, .ok fun i => some (some ((c + x) i))) := by
    have htj : Newton.tunedJacobian (fdI orth) [] t₁.solver = .ok none :=
      (Newton.tuned_jacobian_rows (fdI orth) [] t₁.solver).1 (by simp)
    have hfd : (fdI orth).require t₁.solver.gates none e₁ = (e₂, .ok (some fun i => some (some ((c + x) i)))) := by
      rw [hAt₁.gates]
      simp [fdI, hreq, Except.map]
    have hzip : t₁.solver.target.zip t₁.solver.ests = [] ++ (S.row 0, e₁) :: [] := by
      rw [hAt₁.target, hAt₁.ests]
      simp [Setup.target, List.ofFn_succ]
      rfl
    have := Newton.requests_have_priority (fdI orth) lstsq [] t₁.solver none htj [] _ _ _ hzip
      (by simp) (by rw [hS.desired 0]; simp) (fun i => some (some ((c + x) i)))
      (by rw [hfd]) ⟨0, by simp⟩
    rw [this, hfd]
    simp [List.ofFn_succ]
  have hμ : ∀ M, (t.maxStep, t.maxNumber).1 = some M → False := by
    intro M hM
    change t.maxStep = some M at hM
    rw [hmax] at hM
    cases hM
  obtain ⟨t₂, hnext, hbase₂⟩ := suggestion (E' := fun _ => e₂) (q' := c + x) hAt₁ (fun M hM => (hμ M hM).elim) hsug
  -- the second evaluation: the gradient is zero
  have hsame : S'.scaled 0 (c + x) = S'.scaled 0 c := by
    change S.response 0 (app (c + x)) / _ = S.response 0 (app c) / _
    rw [happx, hcc]
  have hx0 : x 0 ≠ 0 := by
    rw [hx]
    refine mul_ne_zero ?_ (hcol₁.heps 0).ne'
    rcases hu1 with h | h <;> simp [h]
  have hsec : ∀ k (y : ℝ), ∃ e', (fdI orth).update (volts (c + x)) (some (S'.scaled k (c + x))) (some y) e₂ = (e', .ok ()) ∧ Done 0 e' := by
    intro k y
    obtain rfl := hfin k
    obtain ⟨e', g', he', hdone, hg'⟩ := hcol₂.last rfl x y (by
      have e : (Fin.snoc (fun j : Fin 0 => (j.elim0 : Vec 1)) x : Fin (0 + 1) → Vec 1) = fun _ => x := by
        funext j
        simp [Fin.snoc]
      have hli : LinearIndependent ℝ (fun _ : Fin 1 => x) := by
        rw [linearIndependent_unique_iff]
        exact fun h => hx0 (congrFun h 0)
      rw [e]
      exact hli)
    refine ⟨e', he', ?_⟩
    have h1 : g' 0 * x 0 = S'.scaled 0 (c + x) - S'.scaled 0 c := by
      have := hg' 0
      simpa [Fin.snoc] using this
    rw [hsame, sub_self] at h1
    have : g' = 0 := by
      funext i
      obtain rfl := hfin i
      exact (mul_eq_zero.1 h1).resolve_right hx0
    rwa [this] at hdone
  obtain ⟨y₃, t₃, b₃, hev₃, -, hAt₃, hb₃⟩ := evaluation (lstsq := lstsq) (I := fdI orth) hS' hbase₂ (c + x)
    (fun k y _ => by obtain ⟨e', he', -⟩ := hsec k y; exact ⟨e', he'⟩)
  have hb₃' : b₃ = false := by
    rw [← Bool.not_eq_true]
    exact fun h => hmiss (c + x) happx (hb₃.1 h)
  subst hb₃'
  obtain ⟨E, hE⟩ : ∃ E : Fin 1 → FD 1, E = fun k => ((fdI orth).update (volts (c + x)) (some (S'.scaled k (c + x))) (some (y₃ k)) e₂).1 := ⟨_, rfl⟩
  have hdone : ∀ k, Done 0 (E k) := by
    intro k
    obtain ⟨e', he', h⟩ := hsec k (y₃ k)
    rw [hE]
    simp only [he']
    exact h
  rw [← hE] at hAt₃
  -- all states that are reached
  let Q : Autotuner.State (OneTuner (FD 1) 1) (Volt (Fin 1)) (Volt (Fin 1)) → Prop := fun s =>
    s = fresh t (volts c) ∨ s = ⟨t₁, volts c, 0, true, none⟩ ∨ s = ⟨t₂, volts c, 0, false, some (volts (c + x))⟩ ∨
    s = ⟨t₂, volts (c + x), 0, false, none⟩ ∨
    (∃ t', At S' (t.maxStep, t.maxNumber) E (c + x) t' ∧ s = ⟨t', volts (c + x), 0, true, none⟩) ∨
    (∃ t', Base S' (t.maxStep, t.maxNumber) E t' ∧ s = ⟨t', volts (c + x), 0, false, some (volts (c + x))⟩) ∨
    ∃ t', Base S' (t.maxStep, t.maxNumber) E t' ∧ s = ⟨t', volts (c + x), 0, false, none⟩
  have hout : ∀ q, S'.outs (volts q) = S.outs (clip lo hi (volts q)) := fun q => rfl
  rw [hout] at hev₁ hev₃
  obtain ⟨s', hs', hQ⟩ := iterates_stay (H := H) (Q := Q) (by
    rintro s (rfl | rfl | rfl | rfl | ⟨t', hAt, rfl⟩ | ⟨t', hB, rfl⟩ | ⟨t', hB, rfl⟩)
    · refine ⟨_, rfl, ?_, .inr (.inl ?_)⟩ <;> simp [iterate, fresh, hH, sourced, hierarchy, isComplete, finish, hev₁]
    · refine ⟨_, rfl, ?_, .inr (.inr (.inl ?_))⟩ <;> simp [iterate, hH, sourced, hierarchy, isComplete, finish, hnext]
    · refine ⟨_, rfl, ?_, .inr (.inr (.inr (.inl ?_)))⟩ <;> simp [iterate, hH, sourced, hierarchy, isComplete, finish, volts]
    · refine ⟨_, rfl, ?_, .inr (.inr (.inr (.inr (.inl ⟨t₃, hAt₃, ?_⟩))))⟩ <;>
        simp [iterate, hH, sourced, hierarchy, isComplete, finish, hev₃]
    · obtain ⟨t'', hn', hb'⟩ := suggestion (E' := E) (q' := c + x) hAt (fun M hM => (hμ M hM).elim)
        (flat_suggestion (orth := orth) hS' hl hdone hAt)
      refine ⟨_, rfl, ?_, .inr (.inr (.inr (.inr (.inr (.inl ⟨t'', hb', ?_⟩)))))⟩ <;>
        simp [iterate, hH, sourced, hierarchy, isComplete, finish, hn']
    · refine ⟨_, rfl, ?_, .inr (.inr (.inr (.inr (.inr (.inr ⟨t', hB, ?_⟩)))))⟩ <;>
        simp [iterate, hH, sourced, hierarchy, isComplete, finish, volts]
    · obtain ⟨y, t'', b, hev, -, hAt, hb⟩ := evaluation (lstsq := lstsq) (I := fdI orth) hS' hB (c + x)
        (fun k y _ => ⟨E k, (hdone k).keeps _ _ _⟩)
      have hb' : b = false := by
        rw [← Bool.not_eq_true]
        exact fun h => hmiss (c + x) happx (hb.1 h)
      subst hb'
      have hE' : (fun k => ((fdI orth).update (volts (c + x)) (some (S'.scaled k (c + x))) (some (y k)) (E k)).1) = E := by
        funext k
        exact congrArg Prod.fst ((hdone k).keeps _ _ _)
      rw [hE'] at hAt
      rw [hout] at hev
      refine ⟨_, rfl, ?_, .inr (.inr (.inr (.inr (.inl ⟨t'', hAt, ?_⟩))))⟩ <;>
        simp [iterate, hH, sourced, hierarchy, isComplete, finish, hev]) N (fresh t (volts c)) (.inl rfl)
  refine ⟨s', hs', ?_⟩
  rcases hQ with rfl | rfl | rfl | rfl | ⟨t', -, rfl⟩ | ⟨t', -, rfl⟩ | ⟨t', -, rfl⟩ <;> rfl

/-- The hypotheses are met by the device of `oneGateSetup`: with some limits its tuning never ends. -/
example {orth : Orth 1} (ho : OrthSpec orth) {lstsq : Newton.Lstsq (Fin 1)} (hl : Newton.LstsqSpec lstsq) :
    ∃ c lo hi : Vec 1, Between lo hi c ∧ ∀ N, ∃ s',
      iterates (sourced (fdI orth) lstsq oneGateSetup.outs (clip lo hi) false) N (fresh oneGateTuner (volts c)) = .ok s' ∧
      isComplete (sourced (fdI orth) lstsq oneGateSetup.outs (clip lo hi) false) s' = false := by
  obtain ⟨c, z, lo, hi, -, hc, -, -, h⟩ := told_start_at_limit_refuted oneGateSetup_valid (tol := 1 / 10) rfl ho hl
  exact ⟨c, lo, hi, hc, h (1 / 2) oneGateTuner ⟨rfl, ⟨fun _ => none, fun _ _ => 1 / 2, fun _ => .inl rfl,
    fun _ _ => by norm_num, rfl⟩, rfl, rfl, by simp [oneGateTuner, Series.index], rfl⟩ rfl⟩

end Qtune.EndToEnd
