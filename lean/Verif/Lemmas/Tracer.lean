import Verif.Spec.Tracer

/-! Helper lemmas for `Verif/Props/Tracer.lean`. -/

namespace Verif.Tracer
open Verif

variable {K : Type} [DecidableEq K]

mutual

theorem trace_sound (shared : K → Bool) : ∀ (g : G K) (s : S K), linFree g = true →
    ∃ (new : List (Path K)) (vis' : List K), trace shared g s = ⟨s.cur, s.res ++ new.map (s.cur ++ ·), vis'⟩ ∧ ∀ w ∈ new, Walk g w
  | .null, s, _ => ⟨[[]], s.vis, by simp [trace], by simp [Walk.stop]⟩
  | .conv dw n p, s, h => by
    simp only [linFree] at h
    simp only [trace]
    split
    · refine ⟨[[.layer (if dw then .dwConv else .conv) n]], s.vis, by simp, ?_⟩
      intro w hw; simp at hw; subst hw; exact .conv dw n p [] (.stop p)
    · obtain ⟨new, vis', h1, h2⟩ := trace_sound shared p
        ⟨s.cur ++ [.layer (if dw then .dwConv else .conv) n], s.res, n :: s.vis⟩ h
      refine ⟨new.map (.layer (if dw then .dwConv else .conv) n :: ·), vis', ?_, ?_⟩
      · rw [h1]; simp [Function.comp_def]
      · intro w hw
        obtain ⟨w', hw', rfl⟩ := List.mem_map.1 hw
        exact .conv dw n p w' (h2 w' hw')
  | .norm n p, s, h => by
    simp only [linFree] at h
    simp only [trace]
    obtain ⟨new, vis', h1, h2⟩ := trace_sound shared p ⟨s.cur ++ [.layer .norm n], s.res, n :: s.vis⟩ h
    refine ⟨new.map (.layer .norm n :: ·), vis', ?_, ?_⟩
    · rw [h1]; simp [Function.comp_def]
    · intro w hw
      obtain ⟨w', hw', rfl⟩ := List.mem_map.1 hw
      exact .norm n p w' (h2 w' hw')
  | .linear n p, s, h => by simp [linFree] at h
  | .cat id ps, s, h => by
    simp only [linFree] at h
    simp only [trace]
    obtain ⟨h1, h2⟩ := traceSubs_sound shared ps s.vis h
    refine ⟨[[.cat id (traceSubs shared ps s.vis).1]], (traceSubs shared ps s.vis).2, by simp, ?_⟩
    intro w hw; simp at hw; subst hw
    exact .cat id ps _ h1 h2
  | .other ps, s, h => by
    simp only [linFree] at h
    obtain ⟨new, vis', h1, h2⟩ := traceAll_sound shared ps s h
    refine ⟨new, vis', by simpa only [trace] using h1, ?_⟩
    intro w hw
    obtain ⟨p, hp, hw'⟩ := h2 w hw
    exact .other ps p w hp hw'

theorem traceAll_sound (shared : K → Bool) : ∀ (ps : List (G K)) (s : S K), linFreeAll ps = true →
    ∃ (new : List (Path K)) (vis' : List K), traceAll shared ps s = ⟨s.cur, s.res ++ new.map (s.cur ++ ·), vis'⟩ ∧ ∀ w ∈ new, ∃ p ∈ ps, Walk p w
  | [], s, _ => ⟨[], s.vis, by simp [traceAll], by simp⟩
  | p :: ps, s, h => by
    simp only [linFreeAll, Bool.and_eq_true] at h
    obtain ⟨new, vis', h1, h2⟩ := trace_sound shared p s h.1
    obtain ⟨new', vis'', h3, h4⟩ := traceAll_sound shared ps (trace shared p s) h.2
    refine ⟨new ++ new', vis'', ?_, ?_⟩
    · simp only [traceAll, h3]; rw [h1]; simp
    · intro w hw
      rcases List.mem_append.1 hw with hw | hw
      · exact ⟨p, by simp, h2 w hw⟩
      · obtain ⟨q, hq, hw'⟩ := h4 w hw
        exact ⟨q, by simp [hq], hw'⟩

theorem traceSubs_sound (shared : K → Bool) : ∀ (ps : List (G K)) (vis : List K), linFreeAll ps = true →
    (traceSubs shared ps vis).1.length = ps.length ∧
    ∀ (i : Nat) p sub, ps[i]? = some p → (traceSubs shared ps vis).1[i]? = some sub → ∀ w ∈ sub, Walk p w
  | [], vis, _ => by simp [traceSubs]
  | p :: ps, vis, h => by
    simp only [linFreeAll, Bool.and_eq_true] at h
    obtain ⟨new, vis', h1, h2⟩ := trace_sound shared p ⟨[], [], vis⟩ h.1
    obtain ⟨h3, h4⟩ := traceSubs_sound shared ps (trace shared p ⟨[], [], vis⟩).vis h.2
    simp only [traceSubs]
    refine ⟨by simp [h3], ?_⟩
    intro i q sub hq hsub w hw
    cases i with
    | zero =>
      simp at hq hsub
      subst hq; subst hsub
      rw [h1] at hw
      simp at hw
      exact h2 w hw
    | succ i => exact h4 i q sub (by simpa using hq) (by simpa using hsub) w hw

end

mutual

theorem onceConvs_unshared (shared : K → Bool) : ∀ (g : G K), ∀ n ∈ onceConvs shared g, shared n = false
  | .null, n, h => by simp [onceConvs] at h
  | .conv _ m p, n, h => by
    simp only [onceConvs, List.mem_append] at h
    rcases h with h | h
    · cases hs : shared m with
      | true => simp [hs] at h
      | false => simp [hs] at h; subst h; exact hs
    · exact onceConvs_unshared shared p n h
  | .norm _ p, n, h => onceConvs_unshared shared p n (by simpa only [onceConvs] using h)
  | .linear _ p, n, h => onceConvs_unshared shared p n (by simpa only [onceConvs] using h)
  | .cat _ ps, n, h => onceConvsAll_unshared shared ps n (by simpa only [onceConvs] using h)
  | .other ps, n, h => onceConvsAll_unshared shared ps n (by simpa only [onceConvs] using h)

theorem onceConvsAll_unshared (shared : K → Bool) : ∀ (ps : List (G K)), ∀ n ∈ onceConvsAll shared ps, shared n = false
  | [], n, h => by simp [onceConvsAll] at h
  | p :: ps, n, h => by
    simp only [onceConvsAll, List.mem_append] at h
    rcases h with h | h
    · exact onceConvs_unshared shared p n h
    · exact onceConvsAll_unshared shared ps n h

end

mutual

theorem trace_exact (shared : K → Bool) : ∀ (g : G K) (s : S K), linFree g = true →
    (onceConvs shared g).Nodup → (∀ n ∈ onceConvs shared g, n ∉ s.vis) →
    (∀ n ∈ onceConvs shared g, n ∉ norms g) →
    ∃ vis', trace shared g s = ⟨s.cur, s.res ++ (allRoutes g).map (s.cur ++ ·), vis'⟩ ∧
      ∀ n ∈ vis', n ∈ s.vis ∨ n ∈ onceConvs shared g ∨ n ∈ norms g ∨ shared n = true
  | .null, s, _, _, _, _ => ⟨s.vis, by simp [trace, allRoutes], fun n h => Or.inl h⟩
  | .conv dw n p, s, h, hnd, hd, hm => by
    simp only [linFree] at h
    simp only [onceConvs] at hnd hd hm
    simp only [norms] at hm
    have hnot : ¬ (n ∈ s.vis ∧ shared n = false) := by
      rintro ⟨h1, h2⟩
      exact hd n (by simp [h2]) h1
    have hnd' := (List.nodup_append.1 hnd)
    obtain ⟨vis', h1, h2⟩ := trace_exact shared p
      ⟨s.cur ++ [.layer (if dw then .dwConv else .conv) n], s.res, n :: s.vis⟩ h hnd'.2.1 (by
        intro k hk hk'
        rcases List.mem_cons.1 hk' with rfl | hk'
        · cases hs : shared k with
          | false => exact hnd'.2.2 k (by simp [hs]) k hk rfl
          | true =>
            -- a shared name is never among the once-run ones
            exact absurd hs (by simpa using onceConvs_unshared shared p k hk)
        · exact hd k (List.mem_append.2 (Or.inr hk)) hk') (fun k hk => hm k (List.mem_append.2 (Or.inr hk)))
    refine ⟨vis', ?_, ?_⟩
    · simp only [trace]
      rw [if_neg hnot, h1]
      simp [allRoutes, Function.comp_def]
    · intro k hk
      simp only [onceConvs, norms]
      rcases h2 k hk with hk | hk | hk | hk
      · rcases List.mem_cons.1 hk with rfl | hk
        · cases hs : shared k with
          | false => simp
          | true => simp
        · exact Or.inl hk
      · simp [hk]
      · simp [hk]
      · simp [hk]
  | .norm n p, s, h, hnd, hd, hm => by
    simp only [linFree] at h
    simp only [onceConvs] at hnd hd hm
    simp only [norms] at hm
    obtain ⟨vis', h1, h2⟩ := trace_exact shared p ⟨s.cur ++ [.layer .norm n], s.res, n :: s.vis⟩ h hnd (by
        intro k hk hk'
        rcases List.mem_cons.1 hk' with rfl | hk'
        · exact hm k hk (by simp)
        · exact hd k hk hk') (fun k hk hk' => hm k hk (by simp [hk']))
    refine ⟨vis', ?_, ?_⟩
    · simp only [trace]
      rw [h1]
      simp [allRoutes, Function.comp_def]
    · intro k hk
      simp only [onceConvs, norms]
      rcases h2 k hk with hk | hk | hk | hk
      · rcases List.mem_cons.1 hk with rfl | hk
        · simp
        · exact Or.inl hk
      · simp [hk]
      · simp [hk]
      · simp [hk]
  | .linear n p, s, h, _, _, _ => by simp [linFree] at h
  | .cat id ps, s, h, hnd, hd, hm => by
    simp only [linFree] at h
    simp only [onceConvs] at hnd hd hm
    simp only [norms] at hm
    obtain ⟨h1, h2⟩ := traceSubs_exact shared ps s.vis h hnd hd hm
    refine ⟨(traceSubs shared ps s.vis).2, ?_, ?_⟩
    · simp only [trace, h1, allRoutes]; simp
    · simpa only [onceConvs, norms] using h2
  | .other ps, s, h, hnd, hd, hm => by
    simp only [linFree] at h
    simp only [onceConvs] at hnd hd hm
    simp only [norms] at hm
    obtain ⟨vis', h1, h2⟩ := traceAll_exact shared ps s h hnd hd hm
    exact ⟨vis', by simpa only [trace, allRoutes] using h1, by simpa only [onceConvs, norms] using h2⟩

theorem traceAll_exact (shared : K → Bool) : ∀ (ps : List (G K)) (s : S K), linFreeAll ps = true →
    (onceConvsAll shared ps).Nodup → (∀ n ∈ onceConvsAll shared ps, n ∉ s.vis) →
    (∀ n ∈ onceConvsAll shared ps, n ∉ normsAll ps) →
    ∃ vis', traceAll shared ps s = ⟨s.cur, s.res ++ (routesOfAll ps).map (s.cur ++ ·), vis'⟩ ∧
      ∀ n ∈ vis', n ∈ s.vis ∨ n ∈ onceConvsAll shared ps ∨ n ∈ normsAll ps ∨ shared n = true
  | [], s, _, _, _, _ => ⟨s.vis, by simp [traceAll, routesOfAll], fun n h => Or.inl h⟩
  | p :: ps, s, h, hnd, hd, hm => by
    simp only [linFreeAll, Bool.and_eq_true] at h
    simp only [onceConvsAll] at hnd hd hm
    simp only [normsAll] at hm
    have hnd' := List.nodup_append.1 hnd
    obtain ⟨vis', h1, h2⟩ := trace_exact shared p s h.1 hnd'.1 (fun k hk => hd k (by simp [hk]))
      (fun k hk hk' => hm k (by simp [hk]) (by simp [hk']))
    have hdis : ∀ n ∈ onceConvsAll shared ps, n ∉ vis' := by
      intro k hk hk'
      rcases h2 k hk' with hx | hx | hx | hx
      · exact hd k (by simp [hk]) hx
      · exact hnd'.2.2 k hx k hk rfl
      · exact hm k (by simp [hk]) (by simp [hx])
      · exact absurd hx (by simpa using onceConvsAll_unshared shared ps k hk)
    obtain ⟨vis'', h3, h4⟩ := traceAll_exact shared ps ⟨s.cur, s.res ++ (allRoutes p).map (s.cur ++ ·), vis'⟩ h.2
      hnd'.2.1 hdis (fun k hk hk' => hm k (by simp [hk]) (by simp [hk']))
    refine ⟨vis'', ?_, ?_⟩
    · simp only [traceAll, h1, h3, routesOfAll]; simp
    · intro k hk
      simp only [onceConvsAll, normsAll, List.mem_append]
      rcases h4 k hk with hx | hx | hx | hx
      · rcases h2 k hx with hx | hx | hx | hx <;> simp [hx]
      · simp [hx]
      · simp [hx]
      · simp [hx]

theorem traceSubs_exact (shared : K → Bool) : ∀ (ps : List (G K)) (vis : List K), linFreeAll ps = true →
    (onceConvsAll shared ps).Nodup → (∀ n ∈ onceConvsAll shared ps, n ∉ vis) →
    (∀ n ∈ onceConvsAll shared ps, n ∉ normsAll ps) →
    (traceSubs shared ps vis).1 = subRoutes ps ∧
      ∀ n ∈ (traceSubs shared ps vis).2, n ∈ vis ∨ n ∈ onceConvsAll shared ps ∨ n ∈ normsAll ps ∨ shared n = true
  | [], vis, _, _, _, _ => by
    refine ⟨by simp [traceSubs, subRoutes], fun n h => Or.inl ?_⟩
    simpa [traceSubs] using h
  | p :: ps, vis, h, hnd, hd, hm => by
    simp only [linFreeAll, Bool.and_eq_true] at h
    simp only [onceConvsAll] at hnd hd hm
    simp only [normsAll] at hm
    have hnd' := List.nodup_append.1 hnd
    obtain ⟨vis', h1, h2⟩ := trace_exact shared p ⟨[], [], vis⟩ h.1 hnd'.1 (fun k hk => hd k (by simp [hk]))
      (fun k hk hk' => hm k (by simp [hk]) (by simp [hk']))
    have hdis : ∀ n ∈ onceConvsAll shared ps, n ∉ vis' := by
      intro k hk hk'
      rcases h2 k hk' with hx | hx | hx | hx
      · exact hd k (by simp [hk]) hx
      · exact hnd'.2.2 k hx k hk rfl
      · exact hm k (by simp [hk]) (by simp [hx])
      · exact absurd hx (by simpa using onceConvsAll_unshared shared ps k hk)
    obtain ⟨h3, h4⟩ := traceSubs_exact shared ps vis' h.2 hnd'.2.1 hdis
      (fun k hk hk' => hm k (by simp [hk]) (by simp [hk']))
    refine ⟨?_, ?_⟩
    · simp only [traceSubs, h1, h3, subRoutes]; simp
    · intro k hk
      simp only [traceSubs, h1] at hk
      simp only [onceConvsAll, normsAll, List.mem_append]
      rcases h4 k hk with hx | hx | hx | hx
      · rcases h2 k hx with hx | hx | hx | hx <;> simp [hx]
      · simp [hx]
      · simp [hx]
      · simp [hx]

end

theorem linFree_topNames (shared : K → Bool) : ∀ (g : G K), linFree g = true → topNames shared g = []
  | .null, _ => rfl
  | .conv _ _ _, _ => rfl
  | .norm _ _, _ => rfl
  | .linear _ _, h => by simp [linFree] at h
  | .cat _ _, _ => rfl
  | .other [], _ => rfl
  | .other [g], h => by
    simp only [linFree, linFreeAll, Bool.and_true] at h
    simpa only [topNames] using linFree_topNames shared g h
  | .other (_ :: _ :: _), _ => rfl

theorem topNames_once (shared : K → Bool) : ∀ (g : G K) (k : K), k ∈ topNames shared g → shared k = false
  | .null, k, h => by simp [topNames] at h
  | .conv _ _ _, k, h => by simp [topNames] at h
  | .norm _ _, k, h => by simp [topNames] at h
  | .cat _ _, k, h => by simp [topNames] at h
  | .other [], k, h => by simp [topNames] at h
  | .other (_ :: _ :: _), k, h => by simp [topNames] at h
  | .other [g], k, h => by
    simp only [topNames] at h
    exact topNames_once shared g k h
  | .linear n g, k, h => by
    simp only [topNames] at h
    by_cases hs : shared n = true
    · rw [if_pos hs] at h
      exact topNames_once shared g k h
    · rw [if_neg hs] at h
      rcases List.mem_cons.1 h with rfl | h
      · simpa using hs
      · exact topNames_once shared g k h

theorem once_names (shared : K → Bool) (g : G K) (k : K) (h : k ∈ topNames shared g ++ onceConvs shared g) : shared k = false := by
  rcases List.mem_append.1 h with h | h
  · exact topNames_once shared g k h
  · exact onceConvs_unshared shared g k h

theorem topLin_exact (shared : K → Bool) {g : G K} (ht : TopLin g) : ∀ (s : S K),
    (topNames shared g ++ onceConvs shared g).Nodup → (∀ n ∈ topNames shared g ++ onceConvs shared g, n ∉ s.vis) →
    (∀ n ∈ onceConvs shared g, n ∉ norms g) →
    (trace shared g s).res = s.res ++ (allRoutes g).map (s.cur ++ ·) := by
  induction ht with
  | base g h =>
    intro s hnd hd hm
    have := linFree_topNames shared g h
    rw [this] at hnd hd
    obtain ⟨vis', h1, _⟩ := trace_exact shared g s h (by simpa using hnd) (by simpa using hd) hm
    rw [h1]
  | linear n g _ ih =>
    intro s hnd hd hm
    by_cases hs : shared n = true
    · simp only [topNames, onceConvs, norms, hs, if_true] at hnd hd hm
      have := ih ⟨s.cur ++ [.layer .linear n], s.res, n :: s.vis⟩ hnd (by
        intro k hk hk'
        rcases List.mem_cons.1 hk' with rfl | hk'
        · have := once_names shared g k hk
          simp [this] at hs
        · exact hd k hk hk') hm
      simp only [trace, hs, Bool.true_eq_false, and_false, if_false, this, allRoutes]
      simp [Function.comp_def]
    have hs : shared n = false := by simpa using hs
    simp only [topNames, onceConvs, norms, hs, Bool.false_eq_true, if_false, List.cons_append, List.nodup_cons] at hnd hd hm
    have hn : n ∉ s.vis := hd n (by simp)
    have := ih ⟨s.cur ++ [.layer .linear n], s.res, n :: s.vis⟩ hnd.2 (by
      intro k hk hk'
      rcases List.mem_cons.1 hk' with rfl | hk'
      · exact hnd.1 hk
      · exact hd k (by simp only [List.mem_cons]; exact Or.inr hk) hk') hm
    simp only [trace, hn, false_and, if_false, this, allRoutes]
    simp [Function.comp_def]
  | other g _ ih =>
    intro s hnd hd hm
    simp only [topNames, onceConvs, onceConvsAll, norms, normsAll, List.append_nil] at hnd hd hm
    simp only [trace, traceAll, allRoutes, routesOfAll, List.append_nil]
    exact ih s hnd hd hm

theorem Listed.mono {r1 r2 : List (Path K)} {e} (h : Listed r1 e) : Listed (r1 ++ r2) e := by
  obtain ⟨q, hq, h⟩ := h
  exact ⟨q, List.mem_append.2 (Or.inl hq), h⟩

mutual

theorem plain_linFree : ∀ g : G K, plain g = true → linFree g = true
  | .null, _ => rfl
  | .conv _ _ p, h => by simp only [plain, linFree] at h ⊢; exact plain_linFree p h
  | .norm _ p, h => by simp only [plain, linFree] at h ⊢; exact plain_linFree p h
  | .linear _ _, h => by simp [plain] at h
  | .cat _ _, h => by simp [plain] at h
  | .other ps, h => by simp only [plain, linFree] at h ⊢; exact plainAll_linFree ps h

theorem plainAll_linFree : ∀ ps : List (G K), plainAll ps = true → linFreeAll ps = true
  | [], _ => rfl
  | p :: ps, h => by
    simp only [plainAll, linFreeAll, Bool.and_eq_true] at h ⊢
    exact ⟨plain_linFree p h.1, plainAll_linFree ps h.2⟩

end

theorem adds_of_eq {s t : S K} {new vis'} (h : t = ⟨s.cur, s.res ++ new.map (s.cur ++ ·), vis'⟩) :
    Adds s t new := by subst h; exact ⟨rfl, rfl⟩

mutual

theorem trace_heads (shared : K → Bool) : ∀ (g : G K) (s : S K), plain g = true → grounded g = true →
    ∃ new, Adds s (trace shared g s) new ∧ (allRoutes g ≠ [] → new ≠ []) ∧
      ∀ b ∈ heads g, ∃ w ∈ new, [PNode.layer b.1 b.2] <+: w
  | .null, s, _, _ => ⟨[[]], ⟨by simp [trace], by simp [trace]⟩, by simp, by simp [heads]⟩
  | .conv dw n p, s, h, hg => by
    simp only [plain] at h
    simp only [grounded, Bool.and_eq_true, Bool.not_eq_true', List.isEmpty_eq_false_iff] at hg
    simp only [trace]
    split
    · refine ⟨[[.layer (if dw then .dwConv else .conv) n]], ⟨by simp, by simp⟩, by simp, ?_⟩
      intro b hb
      simp only [heads, List.mem_singleton] at hb
      subst hb
      exact ⟨_, by simp, List.prefix_refl _⟩
    · obtain ⟨new, ⟨h1, h1'⟩, h2, _⟩ := trace_heads shared p
        ⟨s.cur ++ [.layer (if dw then .dwConv else .conv) n], s.res, n :: s.vis⟩ h hg.2
      refine ⟨new.map (.layer (if dw then .dwConv else .conv) n :: ·), ⟨by simp [h1], ?_⟩, ?_, ?_⟩
      · simp only [h1']; simp [Function.comp_def]
      · intro _; simpa using h2 hg.1
      · intro b hb
        simp only [heads, List.mem_singleton] at hb
        subst hb
        obtain ⟨w, hw⟩ := List.exists_mem_of_ne_nil _ (h2 hg.1)
        exact ⟨_, List.mem_map.2 ⟨w, hw, rfl⟩, ⟨w, rfl⟩⟩
  | .norm n p, s, h, hg => by
    simp only [plain] at h
    simp only [grounded, Bool.and_eq_true, Bool.not_eq_true', List.isEmpty_eq_false_iff] at hg
    simp only [trace]
    obtain ⟨new, ⟨h1, h1'⟩, h2, _⟩ := trace_heads shared p
        ⟨s.cur ++ [.layer .norm n], s.res, n :: s.vis⟩ h hg.2
    refine ⟨new.map (.layer .norm n :: ·), ⟨by simp [h1], ?_⟩, ?_, ?_⟩
    · simp only [h1']; simp [Function.comp_def]
    · intro _; simpa using h2 hg.1
    · intro b hb
      simp only [heads, List.mem_singleton] at hb
      subst hb
      obtain ⟨w, hw⟩ := List.exists_mem_of_ne_nil _ (h2 hg.1)
      exact ⟨_, List.mem_map.2 ⟨w, hw, rfl⟩, ⟨w, rfl⟩⟩
  | .linear n p, s, h, _ => by simp [plain] at h
  | .cat _ _, s, h, _ => by simp [plain] at h
  | .other ps, s, h, hg => by
    simp only [plain] at h
    simp only [grounded] at hg
    simpa only [trace, heads, allRoutes] using traceAll_heads shared ps s h hg

theorem traceAll_heads (shared : K → Bool) : ∀ (ps : List (G K)) (s : S K), plainAll ps = true → groundedAll ps = true →
    ∃ new, Adds s (traceAll shared ps s) new ∧ (routesOfAll ps ≠ [] → new ≠ []) ∧
      ∀ b ∈ headsAll ps, ∃ w ∈ new, [PNode.layer b.1 b.2] <+: w
  | [], s, _, _ => ⟨[], ⟨by simp [traceAll], by simp [traceAll]⟩, by simp [routesOfAll], by simp [headsAll]⟩
  | p :: ps, s, h, hg => by
    simp only [plainAll, Bool.and_eq_true] at h
    simp only [groundedAll, Bool.and_eq_true] at hg
    obtain ⟨n1, ⟨h1, h1'⟩, h2, h3⟩ := trace_heads shared p s h.1 hg.1
    obtain ⟨n2, ⟨h4, h4'⟩, h5, h6⟩ := traceAll_heads shared ps (trace shared p s) h.2 hg.2
    simp only [traceAll]
    refine ⟨n1 ++ n2, ⟨by rw [h4, h1], ?_⟩, ?_, ?_⟩
    · rw [h4', h1', h1]; simp
    · intro hne
      simp only [routesOfAll, ne_eq, List.append_eq_nil_iff, not_and_or] at hne ⊢
      exact hne.imp h2 h5
    · intro b hb
      simp only [headsAll, List.mem_append] at hb
      rcases hb with hb | hb
      · obtain ⟨w, hw, hw'⟩ := h3 b hb
        exact ⟨w, by simp [hw], hw'⟩
      · obtain ⟨w, hw, hw'⟩ := h6 b hb
        exact ⟨w, by simp [hw], hw'⟩

end

theorem DoneAt.mono {T : K → Option (Bool × G K)} {r1 r2 : List (Path K)} {m : K} (h : DoneAt T r1 m) :
    DoneAt T (r1 ++ r2) m := fun dw p hT e he => (h dw p hT e he).mono

mutual

theorem trace_edges (shared : K → Bool) (T : K → Option (Bool × G K)) : ∀ (g : G K) (s : S K),
    plain g = true → grounded g = true → SameBelow shared T g → VisOk shared T s (sizeOf g) →
    (∀ e ∈ edges g, Listed (trace shared g s).res e) ∧
    ∀ m ∈ (trace shared g s).vis, shared m = false → DoneAt T (trace shared g s).res m ∨ m ∈ s.vis
  | .null, s, _, _, _, _ => ⟨by simp [edges], fun m hm _ => Or.inr (by simpa [trace] using hm)⟩
  | .conv dw n p, s, h, hg, hT, hv => by
    simp only [plain] at h
    have hg' := hg
    simp only [grounded, Bool.and_eq_true, Bool.not_eq_true', List.isEmpty_eq_false_iff] at hg'
    simp only [SameBelow] at hT
    by_cases hc : n ∈ s.vis ∧ shared n = false
    · have hTn := hT.1 hc.2
      have hdone : DoneAt T s.res n := by
        rcases hv n hc.1 hc.2 with h' | h'
        · exact h'
        · have := h' dw p hTn
          simp at this
      simp only [trace, if_pos hc]
      exact ⟨fun e he => (hdone dw p hTn e he).mono, fun m hm _ => Or.inr hm⟩
    · obtain ⟨new, ⟨h1, h1'⟩, _, h3⟩ := trace_heads shared p
        ⟨s.cur ++ [.layer (if dw then .dwConv else .conv) n], s.res, n :: s.vis⟩ h hg'.2
      obtain ⟨h4, h5⟩ := trace_edges shared T p
        ⟨s.cur ++ [.layer (if dw then .dwConv else .conv) n], s.res, n :: s.vis⟩ h hg'.2 hT.2 (by
          intro m hm hs
          rcases List.mem_cons.1 hm with rfl | hm
          · right
            intro dw' p' hT'
            rw [hT.1 hs] at hT'
            simp at hT'
            simp [hT'.2]
          · rcases hv m hm hs with h' | h'
            · exact Or.inl h'
            · right
              intro dw' p' hT'
              have := h' dw' p' hT'
              simp at this
              omega)
      simp only [trace, if_neg hc]
      have hall : ∀ e ∈ edges (.conv dw n p), Listed (trace shared p
          ⟨s.cur ++ [.layer (if dw then .dwConv else .conv) n], s.res, n :: s.vis⟩).res e := by
        intro e he
        simp only [edges, List.mem_append, List.mem_map] at he
        rcases he with ⟨b, hb, rfl⟩ | he
        · obtain ⟨w, hw, w', rfl⟩ := h3 b hb
          rw [h1']
          refine ⟨_, List.mem_append.2 (Or.inr (List.mem_map.2 ⟨_, hw, rfl⟩)), s.cur, w', ?_⟩
          simp
        · exact h4 e he
      refine ⟨hall, ?_⟩
      intro m hm hs
      rcases h5 m hm hs with h' | h'
      · exact Or.inl h'
      · rcases List.mem_cons.1 h' with rfl | h'
        · left
          intro dw' p' hT'
          rw [hT.1 hs] at hT'
          simp at hT'
          obtain ⟨rfl, rfl⟩ := hT'
          exact hall
        · exact Or.inr h'
  | .norm n p, s, h, hg, hT, hv => by
    simp only [plain] at h
    have hg' := hg
    simp only [grounded, Bool.and_eq_true, Bool.not_eq_true', List.isEmpty_eq_false_iff] at hg'
    simp only [SameBelow] at hT
    obtain ⟨new, ⟨h1, h1'⟩, _, h3⟩ := trace_heads shared p
      ⟨s.cur ++ [.layer .norm n], s.res, n :: s.vis⟩ h hg'.2
    obtain ⟨h4, h5⟩ := trace_edges shared T p
      ⟨s.cur ++ [.layer .norm n], s.res, n :: s.vis⟩ h hg'.2 hT.2 (by
        intro m hm hs
        rcases List.mem_cons.1 hm with rfl | hm
        · right
          intro dw' p' hT'
          rw [hT.1] at hT'
          simp at hT'
        · rcases hv m hm hs with h' | h'
          · exact Or.inl h'
          · right
            intro dw' p' hT'
            have := h' dw' p' hT'
            simp at this
            omega)
    simp only [trace]
    refine ⟨?_, ?_⟩
    · intro e he
      simp only [edges, List.mem_append, List.mem_map] at he
      rcases he with ⟨b, hb, rfl⟩ | he
      · obtain ⟨w, hw, w', rfl⟩ := h3 b hb
        rw [h1']
        refine ⟨_, List.mem_append.2 (Or.inr (List.mem_map.2 ⟨_, hw, rfl⟩)), s.cur, w', ?_⟩
        simp
      · exact h4 e he
    · intro m hm hs
      rcases h5 m hm hs with h' | h'
      · exact Or.inl h'
      · rcases List.mem_cons.1 h' with rfl | h'
        · left
          intro dw' p' hT'
          rw [hT.1] at hT'
          simp at hT'
        · exact Or.inr h'
  | .linear n p, s, h, _, _, _ => by simp [plain] at h
  | .cat _ _, s, h, _, _, _ => by simp [plain] at h
  | .other ps, s, h, hg, hT, hv => by
    simp only [plain] at h
    simp only [grounded] at hg
    simp only [SameBelow] at hT
    have := traceAll_edges shared T ps s h hg hT (by
      intro m hm hs
      rcases hv m hm hs with h' | h'
      · exact Or.inl h'
      · right
        intro dw' p' hT'
        have := h' dw' p' hT'
        simp at this
        omega)
    simpa only [trace, edges] using this

theorem traceAll_edges (shared : K → Bool) (T : K → Option (Bool × G K)) : ∀ (ps : List (G K)) (s : S K),
    plainAll ps = true → groundedAll ps = true → SameBelowAll shared T ps → VisOk shared T s (sizeOf ps) →
    (∀ e ∈ edgesAll ps, Listed (traceAll shared ps s).res e) ∧
    ∀ m ∈ (traceAll shared ps s).vis, shared m = false → DoneAt T (traceAll shared ps s).res m ∨ m ∈ s.vis
  | [], s, _, _, _, _ => ⟨by simp [edgesAll], fun m hm _ => Or.inr (by simpa [traceAll] using hm)⟩
  | p :: ps, s, h, hg, hT, hv => by
    simp only [plainAll, Bool.and_eq_true] at h
    simp only [groundedAll, Bool.and_eq_true] at hg
    simp only [SameBelowAll] at hT
    obtain ⟨n1, ⟨h0, h0'⟩, _⟩ := trace_heads shared p s h.1 hg.1
    obtain ⟨n2, ⟨h6, h6'⟩, _⟩ := traceAll_heads shared ps (trace shared p s) h.2 hg.2
    obtain ⟨h1, h2⟩ := trace_edges shared T p s h.1 hg.1 hT.1 (by
      intro m hm hs
      rcases hv m hm hs with h' | h'
      · exact Or.inl h'
      · right
        intro dw' p' hT'
        have := h' dw' p' hT'
        simp at this
        omega)
    obtain ⟨h3, h4⟩ := traceAll_edges shared T ps (trace shared p s) h.2 hg.2 hT.2 (by
      intro m hm hs
      rcases h2 m hm hs with h' | h'
      · exact Or.inl h'
      · rcases hv m h' hs with h' | h'
        · left; rw [h0']; exact h'.mono
        · right
          intro dw' p' hT'
          have := h' dw' p' hT'
          simp at this
          omega)
    simp only [traceAll]
    refine ⟨?_, ?_⟩
    · intro e he
      simp only [edgesAll, List.mem_append] at he
      rcases he with he | he
      · rw [h6']; exact (h1 e he).mono
      · exact h3 e he
    · intro m hm hs
      rcases h4 m hm hs with h' | h'
      · exact Or.inl h'
      · rcases h2 m h' hs with h' | h'
        · left; rw [h6']; exact h'.mono
        · exact Or.inr h'

end

end Verif.Tracer
