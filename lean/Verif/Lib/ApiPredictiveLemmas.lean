import Verif.Props.Pushforward
import Verif.Props.PushforwardNonlin
import Verif.Props.Api
import Verif.Spec.ApiPredictive

/-! # Lemmas on the predictive selected by name -/

namespace Laplax
open Laplax.Spec Laplax.Props
open scoped BigOperators Matrix

variable {X K : Type} {p : ℕ}

/-- Keys a step may write. -/
def Foot (step : PfStep X K p) (keys : List String) : Prop :=
  ∀ r aux ctx r' aux', step r aux ctx = .ok (r', aux') → ∀ k, k ∉ keys → r'.get? k = r.get? k

theorem Foot.ensure {step : PfStep X K p} {keys : List String} (h : Foot step keys) (key : String) : Foot (ensureKey key step) keys := by
  intro r aux ctx r' aux' he k hk
  simp only [ensureKey] at he
  split_ifs at he
  · cases he; rfl
  · exact h _ _ _ _ _ he k hk

theorem Foot.mono {step : PfStep X K p} {keys keys' : List String} (h : Foot step keys) (hs : ∀ k ∈ keys, k ∈ keys') : Foot step keys' :=
  fun r aux ctx r' aux' he k hk => h r aux ctx r' aux' he k (fun hk' => hk (hs k hk'))

theorem getE_ok {V : Type} {r : Dict V} {k : String} {v : V} (h : r.getE k = .ok v) : r.get? k = some v := by
  unfold Dict.getE at h
  cases hk : r.get? k with
  | none => rw [hk] at h; cases h
  | some w => rw [hk] at h; cases h; rfl

theorem foot_linSetup : Foot (linSetup : PfStep X K p) [] := by
  intro r aux ctx r' aux' he k _
  simp only [linSetup, bind_ok_iff, pure, Except.pure] at he
  obtain ⟨_, _, _, _, _, _, h⟩ := he
  cases h; rfl

theorem foot_linPredMean : Foot (linPredMean : PfStep X K p) ["pred_mean"] := by
  intro r aux ctx r' aux' he k hk
  simp only [linPredMean, bind_ok_iff, pure, Except.pure] at he
  obtain ⟨_, _, h⟩ := he
  cases h
  simp at hk
  simp [Dict.get?_set, Ne.symm hk]

theorem foot_linPredVar : Foot (linPredVar : PfStep X K p) ["pred_mean", "pred_var"] := by
  intro r aux ctx r' aux' he k hk
  simp only [linPredVar, bind_ok_iff, pure, Except.pure] at he
  obtain ⟨_, _, ⟨r1, a1⟩, h1, _, _, _, _, _, _, h⟩ := he
  cases h
  simp at hk
  rw [Dict.get?_set, if_neg (Ne.symm hk.2)]
  exact (foot_linPredMean.ensure _) _ _ _ _ _ h1 k (by simp [hk.1])

theorem foot_linPredStd : Foot (linPredStd : PfStep X K p) ["pred_mean", "pred_var", "pred_std"] := by
  intro r aux ctx r' aux' he k hk
  simp only [linPredStd, bind_ok_iff, pure, Except.pure] at he
  obtain ⟨⟨r1, a1⟩, h1, _, _, h⟩ := he
  cases h
  simp at hk
  rw [Dict.get?_set, if_neg (Ne.symm hk.2.2)]
  exact (foot_linPredVar.ensure _) _ _ _ _ _ h1 k (by simp [hk.1, hk.2.1])

theorem foot_linPredCov : Foot (linPredCov : PfStep X K p) ["pred_mean", "pred_cov"] := by
  intro r aux ctx r' aux' he k hk
  simp only [linPredCov, bind_ok_iff, pure, Except.pure] at he
  obtain ⟨⟨r1, a1⟩, h1, _, _, _, _, _, _, _, _, h⟩ := he
  cases h
  simp at hk
  rw [Dict.get?_set, if_neg (Ne.symm hk.2)]
  exact (foot_linPredMean.ensure _) _ _ _ _ _ h1 k (by simp [hk.1])

theorem foot_linSamples : Foot (linSamples : PfStep X K p) ["pred_mean", "samples"] := by
  intro r aux ctx r' aux' he k hk
  simp only [linSamples, bind_ok_iff, pure, Except.pure] at he
  obtain ⟨⟨r1, a1⟩, h1, _, _, _, _, _, _, _, _, h⟩ := he
  cases h
  simp at hk
  rw [Dict.get?_set, if_neg (Ne.symm hk.2)]
  exact (foot_linPredMean.ensure _) _ _ _ _ _ h1 k (by simp [hk.1])

theorem foot_linMc : Foot (linMcPredAct : PfStep X K p) ["pred_mean", "samples", "mc_pred_act"] := by
  intro r aux ctx r' aux' he k hk
  simp only [linMcPredAct, bind_ok_iff, pure, Except.pure] at he
  obtain ⟨⟨r1, a1⟩, h1, _, _, _, _, h⟩ := he
  cases h
  simp at hk
  rw [Dict.get?_set, if_neg (Ne.symm hk.2.2)]
  exact (foot_linSamples.ensure _) _ _ _ _ _ h1 k (by simp [hk.1, hk.2.1])

theorem linPredStd_var (r : Dict (Arr ℝ)) (aux : PfAux X) (ctx : PfCtx X K p) (r' : Dict (Arr ℝ)) (aux' : PfAux X)
    (he : linPredStd (X := X) (K := K) (p := p) r aux ctx = .ok (r', aux')) : (r'.get? "pred_var").isSome := by
  simp only [linPredStd, bind_ok_iff, pure, Except.pure] at he
  obtain ⟨⟨r1, a1⟩, h1, _, hv, h⟩ := he
  cases h
  rw [Dict.get?_set, if_neg (by simp), getE_ok hv]; rfl

theorem linMc_samples (r : Dict (Arr ℝ)) (aux : PfAux X) (ctx : PfCtx X K p) (r' : Dict (Arr ℝ)) (aux' : PfAux X)
    (he : linMcPredAct (X := X) (K := K) (p := p) r aux ctx = .ok (r', aux')) : (r'.get? "samples").isSome := by
  simp only [linMcPredAct, bind_ok_iff, pure, Except.pure] at he
  obtain ⟨⟨r1, a1⟩, h1, _, hv, _, _, h⟩ := he
  cases h
  rw [Dict.get?_set, if_neg (by simp), getE_ok hv]; rfl

/-- The special predictive writes the variance for `mean_field_0/1` and the covariance for `mean_field_2`. -/
theorem special_foot (r : Dict (Arr ℝ)) (aux : PfAux X) (ctx : PfCtx X K p) (r' : Dict (Arr ℝ)) (aux' : PfAux X)
    (he : specialPredAct (X := X) (K := K) (p := p) true r aux ctx = .ok (r', aux')) :
    (∀ k, k ∉ ["pred_mean", "special_pred_act",
        if ctx.kw.specialPredType.getD "mean_field_0" = "mean_field_2" then "pred_cov" else "pred_var"] → r'.get? k = r.get? k) ∧
      (r'.get? (if ctx.kw.specialPredType.getD "mean_field_0" = "mean_field_2" then "pred_cov" else "pred_var")).isSome := by
  simp only [specialPredAct, if_true, bind_ok_iff] at he
  obtain ⟨⟨r1, a1⟩, h1, m, hm, h⟩ := he
  have f1 := (foot_linPredMean (X := X) (K := K) (p := p)).ensure "pred_mean" _ _ _ _ _ h1
  generalize ctx.kw.specialPredType.getD "mean_field_0" = kind at *
  by_cases hk2 : kind = "mean_field_2"
  · subst hk2
    have hf : varPredFn (ctx.kw.useCorrection.getD true) "mean_field_2" = none := by
      simp only [varPredFn]; rw [if_neg (by simp), if_neg (by simp), if_neg (by simp)]
    simp only [hf, if_true, bind_ok_iff, pure, Except.pure] at h
    obtain ⟨⟨r2, a2⟩, h2, c, hc, v, hv, h⟩ := h
    cases h
    have f2 := (foot_linPredCov (X := X) (K := K) (p := p)).ensure "pred_cov" _ _ _ _ _ h2
    refine ⟨?_, ?_⟩
    · intro k hk
      simp at hk
      rw [Dict.get?_set, if_neg (Ne.symm hk.2.1), f2 k (by simp [hk.1, hk.2.2]), f1 k (by simp [hk.1])]
    · rw [if_pos rfl, Dict.get?_set, if_neg (by simp), getE_ok hc]; rfl
  · cases hf : varPredFn (ctx.kw.useCorrection.getD true) kind with
    | none => rw [hf] at h; simp only [hk2, if_false] at h; cases h
    | some f =>
      rw [hf] at h
      simp only [bind_ok_iff, pure, Except.pure] at h
      obtain ⟨⟨r2, a2⟩, h2, c, hc, v, hv, h⟩ := h
      cases h
      have f2 := (foot_linPredVar (X := X) (K := K) (p := p)).ensure "pred_var" _ _ _ _ _ h2
      refine ⟨?_, ?_⟩
      · intro k hk
        simp [hk2] at hk
        rw [Dict.get?_set, if_neg (Ne.symm hk.2.1), f2 k (by simp [hk.1, hk.2.2]), f1 k (by simp [hk.1])]
      · rw [if_neg hk2, Dict.get?_set, if_neg (by simp), getE_ok hc]; rfl

/-- A run of steps equals a run of pointwise equal steps. -/
theorem finalizeLoop_congr (ctx ctx' : PfCtx X K p) (gs hs : List (PfStep X K p))
    (h : List.Forall₂ (fun g h => ∀ r a, g r a ctx = h r a ctx') gs hs) (r : Dict (Arr ℝ)) (a : PfAux X) :
    finalizeLoop ctx gs r a = finalizeLoop ctx' hs r a := by
  induction h generalizing r a with
  | nil => rfl
  | cons h _ ih =>
    simp only [finalizeLoop, h]
    congr 1; funext q; exact ih q.1 q.2

/-- The keyword arguments `calibration` and `evaluation` pass, with a predictive type filled in. -/
def apiKw (a : PredictiveArgs X K p) (kind : Option String) : PfKwargs K :=
  { key := some a.key, numSamples := some a.numSamples, specialPredType := kind }

/-- The linearised functions behind the default list of a predictive type. -/
def apiLinFns (predictive : String) : List LinFn :=
  [.predMean, .predStd] ++ (if predictive = "none" then [] else [if predictive = "mc_bridge" then .mcPredAct else .specialPredAct])

/-- The names behind a predictive type (C44). -/
def apiNames (predictive : String) : List PfName :=
  [.linSetup, .linPredMean, .linPredStd] ++
    (if predictive = "none" then [] else [if predictive = "mc_bridge" then .linMcPredAct else .linSpecialPredAct predictive, .getPredAct])

/-- The publication of the class probabilities. -/
def publish (predictive : String) (r : Dict (Arr ℝ)) : Dict (Arr ℝ) :=
  if predictive = "none" then r else
    match getPredAct r () () with
    | .ok q => q.1
    | .error _ => r

theorem getPredAct_publish {A : Type} (r : Dict (Arr ℝ)) (aux : A) (kw : L) (predictive : String) (hp : predictive ≠ "none") :
    getPredAct r aux kw = .ok (publish predictive r, aux) := by
  simp only [publish, hp, if_false]; rfl

theorem finalizeFns_getPredAct {A L : Type} (predictive : String) (hp : predictive ≠ "none")
    (fs : List (Dict (Arr ℝ) → A → L → Except Err (Dict (Arr ℝ) × A))) (r : Dict (Arr ℝ)) (a : A) (ctx : L) :
    finalizeFns (fs ++ [getPredAct]) r a ctx = (finalizeFns fs r a ctx >>= fun r' => .ok (publish predictive r')) := by
  simp only [finalizeFns, finalizeLoop_append, finalizeLoop]
  cases finalizeLoop ctx fs r a with
  | error e => rfl
  | ok q => simp only [ok_bind, getPredAct_publish _ _ _ predictive hp]; rfl

/-- The default linearised predictive by name is the run of the underlying functions followed by the publication. -/
theorem setPushforward_lin (a : PredictiveArgs X K p) (predictive : String) (prior : PriorArgs) (x : X) :
    setPushforward a .lin (apiNames predictive) prior x =
      (linPushforward a.rng a.net a.params a.posteriorFn prior 1 ((LinFn.setup :: apiLinFns predictive).map LinFn.step)
        (apiKw a (some predictive)) x >>= fun r => .ok (publish predictive r)) := by
  have key : ∀ (r : Dict (Arr ℝ)) (aux : PfAux X) (dist : DistState X p),
      finalizeFns ((apiNames predictive).map (PfName.step a.custom)) r aux ⟨x, dist, { key := some a.key, numSamples := some a.numSamples }⟩ =
      (finalizeFns ((LinFn.setup :: apiLinFns predictive).map LinFn.step) r aux ⟨x, dist, apiKw a (some predictive)⟩ >>=
        fun r => .ok (publish predictive r)) := by
    intro r aux dist
    by_cases h0 : predictive = "none"
    · subst h0
      have e := finalizeLoop_congr (⟨x, dist, { key := some a.key, numSamples := some a.numSamples }⟩ : PfCtx X K p)
        ⟨x, dist, apiKw a (some "none")⟩ ((apiNames "none").map (PfName.step a.custom))
        ((LinFn.setup :: apiLinFns "none").map LinFn.step)
        (by simp only [apiNames, apiLinFns, if_true, List.append_nil, List.map_cons, List.map_nil]
            exact .cons (fun _ _ => rfl) (.cons (fun _ _ => rfl) (.cons (fun _ _ => rfl) .nil))) r aux
      simp only [finalizeFns, e]
      cases finalizeLoop (⟨x, dist, apiKw a (some "none")⟩ : PfCtx X K p) ((LinFn.setup :: apiLinFns "none").map LinFn.step) r aux <;> rfl
    · have hn : (apiNames predictive).map (PfName.step (X := X) (K := K) (p := p) a.custom) =
          ([PfName.linSetup, .linPredMean, .linPredStd] ++ [if predictive = "mc_bridge" then PfName.linMcPredAct else PfName.linSpecialPredAct predictive]).map
            (PfName.step a.custom) ++ [getPredAct] := by
        simp only [apiNames, h0, if_false, List.map_append, List.map_cons, List.map_nil, List.append_assoc]; rfl
      rw [hn, finalizeFns_getPredAct predictive h0]
      have e := finalizeLoop_congr (⟨x, dist, { key := some a.key, numSamples := some a.numSamples }⟩ : PfCtx X K p)
        ⟨x, dist, apiKw a (some predictive)⟩ (([PfName.linSetup, .linPredMean, .linPredStd] ++ [if predictive = "mc_bridge" then PfName.linMcPredAct else PfName.linSpecialPredAct predictive]).map (PfName.step a.custom))
        ((LinFn.setup :: apiLinFns predictive).map LinFn.step)
        (by simp only [apiLinFns, h0, if_false, List.map_cons, List.map_nil, List.cons_append, List.nil_append]
            refine .cons (fun _ _ => rfl) (.cons (fun _ _ => rfl) (.cons (fun _ _ => rfl) (.cons ?_ .nil)))
            intro r a
            by_cases h1 : predictive = "mc_bridge"
            · simp only [h1, if_true]; rfl
            · simp only [h1, if_false]; rfl) r aux
      simp only [finalizeFns, e]
  simp only [setPushforward, linPushforward, bind_assoc]
  cases a.posteriorFn prior 1 with
  | error e => rfl
  | ok post =>
    simp only [ok_bind]
    have hd : getDistState a.rng a.params a.net post true ((some a.numSamples).getD 0) (some a.key)
        ({ key := some a.key, numSamples := some a.numSamples } : PfKwargs K) =
        getDistState a.rng a.params a.net post true ((apiKw a (some predictive)).numSamples.getD 0) (apiKw a (some predictive)).key
          (apiKw a (some predictive)) := rfl
    rw [hd]
    cases getDistState a.rng a.params a.net post true ((apiKw a (some predictive)).numSamples.getD 0) (apiKw a (some predictive)).key
          (apiKw a (some predictive)) with
    | error e => rfl
    | ok dist =>
      simp only [ok_bind, probPredictive, bind_assoc]
      cases a.net.call x a.params with
      | error e => rfl
      | ok m => simp only [ok_bind]; exact key _ _ _

/-- The keys present after the default run of a predictive type. -/
def apiKeys (predictive : String) : List String :=
  ["map", "pred_mean", "pred_var", "pred_std"] ++
    (if predictive = "none" then [] else if predictive = "mc_bridge" then ["samples", "mc_pred_act"]
      else if predictive = "mean_field_2" then ["pred_cov", "special_pred_act"] else ["special_pred_act"])

/-- The linearised run of a predictive type writes exactly these keys, given that the requested ones are there. -/
theorem lin_keys (rng : Prng K) (net : Net X p) (mean : PyTree ℝ) (posteriorFn : PriorArgs → ℝ → Except Err (Posterior p))
    (prior : PriorArgs) (lsf : ℝ) (predictive : String) (kw : PfKwargs K) (hk : kw.specialPredType = some predictive) (x : X) (r : Dict (Arr ℝ))
    (he : linPushforward rng net mean posteriorFn prior lsf ((LinFn.setup :: apiLinFns predictive).map LinFn.step) kw x = .ok r)
    (hs : ∀ fn ∈ apiLinFns predictive, (r.get? (linKey fn)).isSome) :
    ∀ k, (r.get? k).isSome ↔ k ∈ apiKeys predictive := by
  simp only [linPushforward, bind_ok_iff] at he
  obtain ⟨post, -, dist, -, he⟩ := he
  simp only [probPredictive, bind_ok_iff, finalizeFns, pure, Except.pure] at he
  obtain ⟨m, -, ⟨r4, a4⟩, he, h⟩ := he
  simp only [Except.ok.injEq] at h
  rw [h] at he
  clear h
  simp only [List.map_cons, apiLinFns, List.cons_append, List.nil_append, finalizeLoop, bind_ok_iff] at he
  obtain ⟨⟨r1, a1⟩, h1, ⟨r2, a2⟩, h2, ⟨r3, a3⟩, h3, h4⟩ := he
  have f1 := foot_linSetup _ _ (⟨x, dist, kw⟩ : PfCtx X K p) _ _ h1
  have f2 := foot_linPredMean _ _ (⟨x, dist, kw⟩ : PfCtx X K p) _ _ h2
  have f3 := foot_linPredStd _ _ _ _ _ h3
  have v3 := linPredStd_var _ _ _ _ _ h3
  have base : ∀ k, k ∉ ["map", "pred_mean", "pred_var", "pred_std"] → r3.get? k = none := by
    intro k hk
    simp at hk
    rw [f3 k (by simp [hk]), f2 k (by simp [hk]), f1 k (by simp)]
    simp [Dict.get?, Ne.symm hk.1]
  have bmap : (r3.get? "map").isSome := by
    rw [f3 _ (by simp), f2 _ (by simp), f1 _ (by simp)]; simp [Dict.get?]
  have hm : (r.get? "pred_mean").isSome := hs .predMean (by simp [apiLinFns])
  have hstd : (r.get? "pred_std").isSome := hs .predStd (by simp [apiLinFns])
  by_cases p0 : predictive = "none"
  · simp only [p0, if_true, List.map_nil, finalizeLoop] at h4
    cases h4
    intro k
    simp only [apiKeys, p0, if_true, List.append_nil]
    constructor
    · intro h; by_contra hc; rw [base k hc] at h; simp at h
    · intro h; simp at h; rcases h with rfl | rfl | rfl | rfl <;> assumption
  simp only [p0, if_false, List.map_cons, List.map_nil, finalizeLoop, bind_ok_iff] at h4
  obtain ⟨⟨r5, a5⟩, h4, h5⟩ := h4
  cases h5
  by_cases p1 : predictive = "mc_bridge"
  · simp only [p1, if_true] at h4
    have f4 := foot_linMc _ _ _ _ _ h4
    have s4 := linMc_samples _ _ _ _ _ h4
    have hmc : (r5.get? "mc_pred_act").isSome := hs .mcPredAct (by simp [apiLinFns, p1])
    intro k
    simp only [apiKeys, p0, p1, if_false, if_true]
    constructor
    · intro h; by_contra hc
      simp at hc
      rw [f4 k (by simp [hc]), base k (by simp [hc])] at h; simp at h
    · intro h; simp at h
      rcases h with rfl | rfl | rfl | rfl | rfl | rfl
      · rw [f4 _ (by simp)]; exact bmap
      · exact hm
      · rw [f4 _ (by simp)]; exact v3
      · exact hstd
      · exact s4
      · exact hmc
  · simp only [p1, if_false] at h4
    obtain ⟨f4, s4⟩ := special_foot _ _ _ _ _ h4
    simp only [hk, Option.getD_some] at f4 s4
    have hsp : (r5.get? "special_pred_act").isSome := hs .specialPredAct (by simp [apiLinFns, p0, p1])
    intro k
    by_cases p2 : predictive = "mean_field_2"
    · simp only [apiKeys, p0, p1, p2, if_false, if_true] at f4 s4 ⊢
      constructor
      · intro h; by_contra hc
        simp at hc
        rw [f4 k (by simp [hc]), base k (by simp [hc])] at h; simp at h
      · intro h; simp at h
        rcases h with rfl | rfl | rfl | rfl | rfl | rfl
        · rw [f4 _ (by simp)]; exact bmap
        · exact hm
        · rw [f4 _ (by simp)]; exact v3
        · exact hstd
        · exact s4
        · exact hsp
    · simp only [apiKeys, p0, p1, p2, if_false] at f4 s4 ⊢
      constructor
      · intro h; by_contra hc
        simp at hc
        rw [f4 k (by simp [hc]), base k (by simp [hc])] at h; simp at h
      · intro h; simp at h
        rcases h with rfl | rfl | rfl | rfl | rfl
        · rw [f4 _ (by simp)]; exact bmap
        · exact hm
        · exact s4
        · exact hstd
        · exact hsp

end Laplax
