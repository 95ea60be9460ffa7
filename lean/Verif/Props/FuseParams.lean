import Verif.Props.FuseEnd

/-!
# C61: the parameters of the fusion methods
-/

set_option linter.unusedSectionVars false

namespace Ranx
open Dict Fuse Norm

/-- Specification: the parameters of each method (besides the runs and the name of the fused run), with
the mark whether they must be given. -/
def Spec.parameters : List (String × List (String × Bool)) :=
  [("min", []), ("max", []), ("med", []), ("sum", []), ("anz", []), ("mnz", []), ("gmnz", [("gamma", true)]),
    ("isr", []), ("log_isr", []), ("logn_isr", [("sigma", false)]), ("rrf", [("k", false)]), ("rbc", [("phi", true)]),
    ("bordafuse", []), ("w_bordafuse", [("weights", true)]), ("condorcet", []), ("w_condorcet", [("weights", true)]),
    ("wsum", [("weights", true)]), ("wmnz", [("weights", true)]), ("mixed", [("weights", true)]),
    ("bayesfuse", [("log_odds", true)]), ("mapfuse", [("map_scores", true)]), ("posfuse", [("probs", true)]),
    ("probfuse", [("probs", true)]), ("segfuse", [("probs", true)]), ("slidefuse", [("probs", true), ("w", true)])]

section
variable {κ δ : Type*} [LinearOrder κ] [DecidableEq δ]

theorem parameters_spec : ∀ p ∈ Spec.parameters, ∃ m, (p.1, m) ∈ Spec.methodNames ∧
    m.parameters = p.2.map Prod.fst ++ ["name"] := by
  have key : ∀ p ∈ Spec.parameters, ∃ m ∈ Spec.methodNames, m.1 = p.1 ∧
      m.2.parameters = p.2.map Prod.fst ++ ["name"] := by decide +kernel
  intro p hp
  obtain ⟨m, h1, h2, h3⟩ := key p hp
  exact ⟨m.2, h2 ▸ h1, h3⟩

theorem numArg_none {params : Kwargs} {a : String} (h : a ∉ params.keys) :
    numArg params a none = .error .typeError := by
  unfold numArg; rw [get?_eq_none.2 h]

theorem numsArg_none {params : Kwargs} {a : String} (h : a ∉ params.keys) :
    numsArg params a = .error .typeError := by
  unfold numsArg; rw [get?_eq_none.2 h]

theorem tablesArg_none {params : Kwargs} {a : String} (h : a ∉ params.keys) :
    tablesArg params a = .error .typeError := by
  unfold tablesArg; rw [get?_eq_none.2 h]

theorem intArg_none {params : Kwargs} {a : String} (h : a ∉ params.keys) :
    intArg params a = .error .typeError := by
  unfold intArg; rw [get?_eq_none.2 h]

/-- a call after any accepted normalization reaches the method -/
theorem fuse_calls (E : Env δ) (runs : List (Store κ δ ℝ)) (hn : 2 ≤ runs.length)
    (hw : ∀ s ∈ runs, Store.Wf s.data) (hq : Spec.SameQueries runs) (norm : Option String)
    (hnorm : ∀ n, norm = some n → n ∈ Spec.normNames.map Prod.fst) :
    ∃ nr, ∀ (name : String) (m : Method), (name, m) ∈ Spec.methodNames → ∀ params : Option Kwargs,
      fuse E runs norm name params = m.call E (params.getD []) nr := by
  have hnr : ∃ nr, normalizeRuns E norm runs = .ok nr := by
    cases norm with
    | none => exact ⟨_, rfl⟩
    | some n => exact normalize_known E runs hn hw hq n (hnorm n rfl)
  obtain ⟨nr, hnr⟩ := hnr
  refine ⟨nr, ?_⟩
  intro name m hm params
  unfold fuse
  rw [if_neg (by omega), if_pos ((pairwiseSameKeys_iff runs).2 hq), hnr]
  simp only
  rw [show fusionSwitch name = .ok m from fusionSwitch_known (name, m) hm]

/-- **C61** (parameters): after any accepted normalization, an argument the method does not have and a missing
argument it needs raise TypeError. -/
theorem C61_bad_parameters (E : Env δ) (runs : List (Store κ δ ℝ)) (hn : 2 ≤ runs.length)
    (hw : ∀ s ∈ runs, Store.Wf s.data) (hq : Spec.SameQueries runs) (norm : Option String)
    (hnorm : ∀ n, norm = some n → n ∈ Spec.normNames.map Prod.fst)
    (name : String) (ps : List (String × Bool)) (hp : (name, ps) ∈ Spec.parameters) (params : Kwargs)
    (hbad : (∃ a ∈ params.keys, a ∉ ps.map Prod.fst ∧ a ≠ "name") ∨ ∃ a, (a, true) ∈ ps ∧ a ∉ params.keys) :
    fuse E runs norm name (some params) = .error .typeError := by
  obtain ⟨nr, hcall⟩ := fuse_calls E runs hn hw hq norm hnorm
  obtain ⟨m, hm, hpar⟩ := parameters_spec _ hp
  rw [hcall name m hm (some params)]
  change m.call E params nr = _
  simp only at hpar
  rcases hbad with ⟨a, ha, hna, hname⟩ | ⟨a, ha, hna⟩
  · unfold Method.call
    rw [if_neg]
    intro hall
    rw [List.all_eq_true] at hall
    have := of_decide_eq_true (hall a ha)
    rw [hpar, List.mem_append, List.mem_singleton] at this
    rcases this with h | h
    · exact hna h
    · exact hname h
  · have hreq : (m, a) ∈ [(Method.combGmnz, "gamma"), (.rbc, "phi"), (.weightedBordafuse, "weights"),
        (.weightedCondorcet, "weights"), (.wsum, "weights"), (.wmnz, "weights"), (.mixed, "weights"),
        (.bayesfuse, "log_odds"), (.mapfuse, "map_scores"), (.posfuse, "probs"), (.probfuse, "probs"),
        (.segfuse, "probs"), (.slidefuse, "probs"), (.slidefuse, "w")] := by
      have key : ∀ p ∈ Spec.parameters, ∀ m ∈ Spec.methodNames, m.1 = p.1 → ∀ x ∈ p.2, x.2 = true →
          (m.2, x.1) ∈ [(Method.combGmnz, "gamma"), (.rbc, "phi"), (.weightedBordafuse, "weights"),
            (.weightedCondorcet, "weights"), (.wsum, "weights"), (.wmnz, "weights"), (.mixed, "weights"),
            (.bayesfuse, "log_odds"), (.mapfuse, "map_scores"), (.posfuse, "probs"), (.probfuse, "probs"),
            (.segfuse, "probs"), (.slidefuse, "probs"), (.slidefuse, "w")] := by decide +kernel
      exact key _ hp _ hm rfl _ ha rfl
    unfold Method.call
    split
    · simp only [List.mem_cons, Prod.mk.injEq, List.not_mem_nil, or_false] at hreq
      rcases hreq with h | h | h | h | h | h | h | h | h | h | h | h | h | h <;> obtain ⟨rfl, rfl⟩ := h
      · simp only; rw [numArg_none hna]; rfl
      · simp only; rw [numArg_none hna]; rfl
      · simp only; rw [numsArg_none hna]; rfl
      · simp only; rw [numsArg_none hna]; rfl
      · simp only; rw [numsArg_none hna]; rfl
      · simp only; rw [numsArg_none hna]; rfl
      · simp only; rw [numsArg_none hna]; rfl
      · simp only; rw [tablesArg_none hna]; rfl
      · simp only; rw [numsArg_none hna]; rfl
      · simp only; rw [tablesArg_none hna]; rfl
      · simp only; rw [tablesArg_none hna]; rfl
      · simp only; rw [tablesArg_none hna]; rfl
      · simp only; rw [tablesArg_none hna]; rfl
      · simp only
        cases ht : tablesArg params "probs" with
        | error e =>
          unfold tablesArg at ht
          split at ht
          · cases ht
          · cases ht; rfl
        | ok t => simp only [bindArg]; rw [intArg_none hna]
    · rfl

/-- **C61** (defaults and ints): `rrf` without `k` uses 60 and `logn_isr` without `sigma` uses 0.01, and an int is
used as the number it is. -/
theorem C61_defaults (E : Env δ) (runs : List (Store κ δ ℝ)) (hn : 2 ≤ runs.length)
    (hw : ∀ s ∈ runs, Store.Wf s.data) (hq : Spec.SameQueries runs) (norm : Option String)
    (hnorm : ∀ n, norm = some n → n ∈ Spec.normNames.map Prod.fst) :
    fuse E runs norm "rrf" none = fuse E runs norm "rrf" (some [("k", .num 60)]) ∧
    fuse E runs norm "logn_isr" none = fuse E runs norm "logn_isr" (some [("sigma", .num (1/100))]) ∧
    (∀ n : Nat, fuse E runs norm "rrf" (some [("k", .int n)]) = fuse E runs norm "rrf" (some [("k", .num n)])) ∧
    (∀ n : Nat, fuse E runs norm "logn_isr" (some [("sigma", .int n)]) =
      fuse E runs norm "logn_isr" (some [("sigma", .num n)])) ∧
    (∀ n : Nat, fuse E runs norm "gmnz" (some [("gamma", .int n)]) =
      fuse E runs norm "gmnz" (some [("gamma", .num n)])) ∧
    (∀ n : Nat, fuse E runs norm "rbc" (some [("phi", .int n)]) =
      fuse E runs norm "rbc" (some [("phi", .num n)])) := by
  obtain ⟨nr, hcall⟩ := fuse_calls E runs hn hw hq norm hnorm
  have h1 := hcall "rrf" .rrf (by decide +kernel)
  have h2 := hcall "logn_isr" .lognIsr (by decide +kernel)
  have h3 := hcall "gmnz" .combGmnz (by decide +kernel)
  have h4 := hcall "rbc" .rbc (by decide +kernel)
  have k0 : ∀ a : String, Dict.get? ([] : Kwargs) a = none := fun _ => rfl
  have k1 : ∀ (a : String) (v : PyVal), Dict.get? ([(a, v)] : Kwargs) a = some v := by
    intro a v; unfold Dict.get?; rw [if_pos rfl]
  have all1 : ∀ (a : String) (v : PyVal) (l : List String), a ∈ l →
      (Dict.keys ([(a, v)] : Kwargs)).all (fun k => decide (k ∈ l)) = true := by
    intro a v l h; simpa [Dict.keys] using h
  have all0 : ∀ l : List String, (Dict.keys ([] : Kwargs)).all (fun k => decide (k ∈ l)) = true := by
    intro l; rfl
  refine ⟨?_, ?_, ?_, ?_, ?_, ?_⟩
  · rw [h1, h1]
    change Method.call E (κ := κ) .rrf [] nr = Method.call E .rrf [("k", .num 60)] nr
    unfold Method.call
    rw [if_pos (all0 _), if_pos (all1 _ _ _ (by decide))]
    simp only
    have e : numArg ([] : Kwargs) "k" (some 60) = numArg [("k", .num 60)] "k" (some 60) := by
      unfold numArg; rw [k0, k1]
    rw [e]
  · rw [h2, h2]
    change Method.call E (κ := κ) .lognIsr [] nr = Method.call E .lognIsr [("sigma", .num (1/100))] nr
    unfold Method.call
    rw [if_pos (all0 _), if_pos (all1 _ _ _ (by decide))]
    simp only
    have e : numArg ([] : Kwargs) "sigma" (some 0.01) = numArg [("sigma", .num (1/100))] "sigma" (some 0.01) := by
      unfold numArg; rw [k0, k1]; norm_num
    rw [e]
  · intro n
    rw [h1, h1]
    change Method.call E (κ := κ) .rrf [("k", .int n)] nr = Method.call E .rrf [("k", .num n)] nr
    unfold Method.call
    rw [if_pos (all1 _ _ _ (by decide)), if_pos (all1 _ _ _ (by decide))]
    simp only
    have e : numArg [("k", .int n)] "k" (some 60) = numArg [("k", .num n)] "k" (some 60) := by
      unfold numArg; rw [k1, k1]
    rw [e]
  · intro n
    rw [h2, h2]
    change Method.call E (κ := κ) .lognIsr [("sigma", .int n)] nr = Method.call E .lognIsr [("sigma", .num n)] nr
    unfold Method.call
    rw [if_pos (all1 _ _ _ (by decide)), if_pos (all1 _ _ _ (by decide))]
    simp only
    have e : numArg [("sigma", .int n)] "sigma" (some 0.01) = numArg [("sigma", .num n)] "sigma" (some 0.01) := by
      unfold numArg; rw [k1, k1]
    rw [e]
  · intro n
    rw [h3, h3]
    change Method.call E (κ := κ) .combGmnz [("gamma", .int n)] nr = Method.call E .combGmnz [("gamma", .num n)] nr
    unfold Method.call
    rw [if_pos (all1 _ _ _ (by decide)), if_pos (all1 _ _ _ (by decide))]
    simp only
    have e : numArg [("gamma", .int n)] "gamma" none = numArg [("gamma", .num n)] "gamma" none := by
      unfold numArg; rw [k1, k1]
    rw [e]
  · intro n
    rw [h4, h4]
    change Method.call E (κ := κ) .rbc [("phi", .int n)] nr = Method.call E .rbc [("phi", .num n)] nr
    unfold Method.call
    rw [if_pos (all1 _ _ _ (by decide)), if_pos (all1 _ _ _ (by decide))]
    simp only
    have e : numArg [("phi", .int n)] "phi" none = numArg [("phi", .num n)] "phi" none := by
      unfold numArg; rw [k1, k1]
    rw [e]

end

/-- Non-vacuity: the two example runs, no `gamma` for gmnz and an unknown argument for rrf, after min-max. -/
example : fuse exEnv [fuseStore1, fuseStore2] (some "min-max") "gmnz" (some []) = .error .typeError ∧
    fuse exEnv [fuseStore1, fuseStore2] none "rrf" (some [("gamma", .num 2)]) = .error .typeError :=
  ⟨C61_bad_parameters exEnv _ (by decide) fuseStore_wf fuseStore_same _ (by
      intro n h; cases h; decide +kernel) "gmnz" [("gamma", true)] (by decide +kernel) [] (.inr ⟨"gamma", by decide +kernel, by
      simp [Dict.keys]⟩),
   C61_bad_parameters exEnv _ (by decide) fuseStore_wf fuseStore_same _ (by
      intro n h; cases h) "rrf" [("k", false)] (by decide +kernel) _ (.inl ⟨"gamma", by simp [Dict.keys], by decide +kernel, by
      decide +kernel⟩)⟩

end Ranx
