import Verif.Lemmas.Ckpt

/-
C82: converting checkpoints.
-/
import Verif.Model.Ckpt
import Mathlib.Data.List.Nodup
import Mathlib.Data.List.Infix

namespace Verif.Ckpt
open Verif

variable {V : Type}

/-- C82, any of the converters: the converted dict has every key once, and the value under a
key is the value of the last entry renamed to it. -/
theorem C82_last (f : Str → Option Str) (d : Dict V) :
    ((convert f d).map (·.1)).Nodup ∧
    ∀ k v, (k, v) ∈ convert f d ↔
      ∃ l key r, d = l ++ (key, v) :: r ∧ f key = some k ∧ ∀ e ∈ r, f e.1 ≠ some k :=
  ⟨convert_nodup f d, convert_mem f d⟩

/-- Two entries renamed to one key: the last value is kept, at the place of the first. -/
example : convert (fun k => some (k.take 1)) [(['a', 'x'], 1), (['b'], 2), (['a', 'y'], 3)] =
    [(['a'], 3), (['b'], 2)] := by decide

/-- C82, the student of a distiller: if in every key `architecture.` occurs at most at the
start, the converted dict has exactly the entries below `architecture.`, without it. -/
theorem C82_student (d : Dict V) (hn : (d.map (·.1)).Nodup)
    (h : ∀ e ∈ d, ∀ r, e.1 = keyArch ++ r → Once keyArch [] r) (k : Str) (v : V) :
    (k, v) ∈ convert studentKey d ↔ (keyArch ++ k, v) ∈ d := by
  simp only [keyArch_eq] at *
  have key : ∀ e ∈ d, ∀ k, studentKey e.1 = some k → e.1 = arch ++ k := by
    intro e he k hk
    obtain ⟨r, hr⟩ := student_some hk
    rw [hr, student_key r (h e he r hr)] at hk
    injection hk with hk
    rw [hr, hk]
  rw [convert_mem_inj studentKey d hn]
  · constructor
    · rintro ⟨x, hx, hk⟩
      have := key _ hx k hk
      dsimp only at this
      rwa [← this]
    · intro hx
      exact ⟨_, hx, student_key k (h _ hx k rfl)⟩
  · intro e he e' he' k hk hk'
    rw [key e he k hk, key e' he' k hk']

/-- Teacher entries are dropped. -/
example : convert studentKey [("architecture.a.w".toList, 1), ("teacher.a.w".toList, 2)] =
    [("a.w".toList, 1)] := by decide +kernel

example : Once arch [] "backbone.conv.weight".toList := once_of _ _ _ (by decide +kernel)

/-- DISAGREEMENT: the prefix is removed wherever it occurs. If the student itself keeps its
network under `architecture.`, its keys lose that part too, and an entry of the student may be
overwritten by another. -/
theorem C82_student_nested_violated (k : Str) (h : Once keyArch [] k) (v w : V) :
    convert studentKey [(keyArch ++ k, v), (keyArch ++ (keyArch ++ k), w)] = [(k, w)] := by
  simp only [keyArch_eq] at *
  have e2 : studentKey (arch ++ (arch ++ k)) = some k := by
    unfold studentKey
    rw [if_pos ((prefix_iff _ _).mpr ⟨_, rfl⟩)]
    have e : replace (arch ++ (arch ++ k)) arch [] = replace (arch ++ k) arch [] := rfl
    rw [e, replace_start arch [] k (by simp [arch]) h]
    rfl
  have e1 := student_key k h
  unfold convert
  rw [List.foldl_cons, List.foldl_cons, List.foldl_nil]
  dsimp only
  rw [e1, e2]
  dsimp only
  rw [put_new [] k v (by simp)]
  unfold put
  simp

/-- C82, the distiller of an older release: the teacher and the student are moved, other keys
stay. -/
theorem C82_distiller :
    (∀ r, Once (keyModel ++ keyDist) [] r →
      kdKey (keyModel ++ keyDist ++ r) =
        some (keyTeacher ++ r)) ∧
    (∀ r, (∀ y, r ≠ keyDist ++ y) → Once keyModel [] r →
      kdKey (keyModel ++ r) = some (keyArchitecture ++ r)) ∧
    (∀ key, (∀ y, key ≠ keyModel ++ y) → kdKey key = some key) := by
  simp only [keyArchitecture_eq, keyDist_eq, keyModel_eq, keyTeacher_eq]
  refine ⟨?_, ?_, ?_⟩
  · intro r h
    unfold kdKey
    rw [if_pos ((prefix_iff _ _).mpr ⟨r, rfl⟩),
      replace_start _ _ r (by simp [archModel]) h]
  · intro r hr h
    unfold kdKey
    rw [if_neg, if_pos ((prefix_iff _ _).mpr ⟨r, rfl⟩),
      replace_start _ _ r (by simp [archModel]) h]
    rw [prefix_iff]
    rintro ⟨y, e⟩
    rw [List.append_assoc] at e
    exact hr y (List.append_cancel_left e)
  · intro key h
    unfold kdKey
    rw [if_neg, if_neg]
    · rw [prefix_iff]
      rintro ⟨y, e⟩
      exact h y e
    · rw [prefix_iff]
      rintro ⟨y, e⟩
      exact h (distTeacher ++ y) (by rw [e, List.append_assoc])

example : Once (archModel ++ distTeacher) [] ".conv.weight".toList ∧
    Once archModel [] ".student.conv.weight".toList :=
  ⟨once_of _ _ _ (by decide +kernel), once_of _ _ _ (by decide +kernel)⟩

/-- DISAGREEMENT: the prefix is not a component of the key. A sibling whose name begins with
`model` is renamed too, to a name outside `architecture.`; and a part `teacher` of the student
is put over the teacher of the distiller. -/
theorem C82_distiller_violated (v w : V) :
    kdKey "architecture.model_ema.weight".toList = some "architecture_ema.weight".toList ∧
    convert kdKey [("architecture.model.distiller.teacher.weight".toList, v),
      ("architecture.model.teacher.weight".toList, w)] =
        [("architecture.teacher.weight".toList, w)] := by
  refine ⟨by decide +kernel, ?_⟩
  have e1 : kdKey "architecture.model.distiller.teacher.weight".toList =
    some "architecture.teacher.weight".toList := by decide +kernel
  have e2 : kdKey "architecture.model.teacher.weight".toList =
    some "architecture.teacher.weight".toList := by decide +kernel
  unfold convert
  rw [List.foldl_cons, List.foldl_cons, List.foldl_nil]
  dsimp only
  rw [e1, e2]
  dsimp only
  generalize "architecture.teacher.weight".toList = k
  rw [put_new [] k v (by simp)]
  unfold put
  simp

/-- C82, a deployed quantised model: only entries below `qmodels.predict.` are kept, without
it; the observed range of a weight, whose key ends in `_val`, gets the name ending in `_vals`;
other keys stay. Missing: names with `_val` inside, see `C82_quant_violated`. -/
theorem C82_quant_partial :
    (∀ key, (∀ y, key ≠ keyPredict ++ y) → quantKey key = none) ∧
    (∀ r, Once keyPredict [] r → (Never keyVal r ∨ Never keyWfq r) →
      quantKey (keyPredict ++ r) = some r) ∧
    (∀ a, Once keyPredict [] (a ++ keyVal) → Once keyVal a [] → ¬ Never keyWfq (a ++ keyVal) →
      quantKey (keyPredict ++ (a ++ keyVal)) = some (a ++ keyVal ++ ['s'])) := by
  simp only [keyPredict_eq, keyVal_eq, keyWfq_eq]
  have strip : ∀ r, Once qpredict [] r → replace (qpredict ++ r) qpredict [] = r :=
    fun r h => (replace_start qpredict [] r (by simp [qpredict]) h)
  refine ⟨?_, ?_, ?_⟩
  · intro key h
    unfold quantKey
    rw [if_neg]
    rw [prefix_iff]
    rintro ⟨y, e⟩
    exact h y e
  · intro r h hr
    unfold quantKey
    rw [if_pos ((prefix_iff _ _).mpr ⟨r, rfl⟩), strip r h]
    dsimp only
    rw [if_neg]
    rw [Bool.and_eq_true]
    rintro ⟨h1, h2⟩
    rcases hr with hr | hr
    · rw [never_iff, h1] at hr
      cases hr
    · rw [never_iff, h2] at hr
      cases hr
  · intro a h ho hw
    unfold quantKey
    rw [if_pos ((prefix_iff _ _).mpr ⟨_, rfl⟩), strip _ h]
    dsimp only
    rw [if_pos]
    · have := replace_once val (val ++ ['s']) a [] (by simp [val]) ho
      rw [List.append_nil, List.append_nil] at this
      rw [this, List.append_assoc]
    · rw [Bool.and_eq_true]
      refine ⟨(has_iff _ _).mpr ⟨a, [], by simp⟩, ?_⟩
      rw [never_iff] at hw
      simpa using hw

example : Once qpredict [] "conv.weight_fake_quant.min_val".toList ∧
    Once val "conv.weight_fake_quant.min".toList [] ∧
    quantKey "qmodels.predict.conv.weight_fake_quant.min_val".toList =
      some "conv.weight_fake_quant.min_vals".toList :=
  ⟨once_of _ _ _ (by decide +kernel), once_of _ _ _ (by decide +kernel), by decide +kernel⟩

/-- DISAGREEMENT: the text `_val` is replaced inside of names too. The scale of the weights
of a layer with `_val` in its name gets the key of no layer, and a key which already ends in
`_vals` is changed. -/
theorem C82_quant_violated :
    (∀ a t, Once keyPredict [] (a ++ keyVal ++ t) → Once keyVal a t → ¬ Never keyWfq (a ++ keyVal ++ t) →
      quantKey (keyPredict ++ (a ++ keyVal ++ t)) = some (a ++ keyVal ++ 's' :: t)) ∧
    quantKey "qmodels.predict.in_value.weight_fake_quant.scale".toList =
      some "in_valsue.weight_fake_quant.scale".toList ∧
    quantKey "qmodels.predict.conv.weight_fake_quant.min_vals".toList =
      some "conv.weight_fake_quant.min_valss".toList := by
  simp only [keyPredict_eq, keyVal_eq, keyWfq_eq]
  refine ⟨?_, by decide +kernel, by decide +kernel⟩
  intro a t h ho hw
  unfold quantKey
  rw [if_pos ((prefix_iff _ _).mpr ⟨_, rfl⟩),
    show replace (qpredict ++ (a ++ val ++ t)) qpredict [] = a ++ val ++ t from
      replace_start qpredict [] _ (by simp [qpredict]) h]
  dsimp only
  rw [if_pos, replace_once val (val ++ ['s']) a t (by simp [val]) ho]
  · simp [List.append_assoc]
  · rw [Bool.and_eq_true]
    refine ⟨(has_iff _ _).mpr ⟨a, t, rfl⟩, ?_⟩
    rw [never_iff] at hw
    simpa using hw

/-- C82, once-for-all networks: with the given depths, block number
`depth[0] + … + depth[j-1] + p` becomes position `p` of layer `j + 1`; a block beyond the sum
of the depths fails. -/
theorem C82_ofa (depth : List ℕ) (n : ℕ) (t : Str) (h : Once keyBlocks [] (num n ++ '.' :: t)) :
    (∀ j p, ∀ hj : j < depth.length, p < depth[j] → n = (depth.take j).sum + p →
      ofaBlock depth (keyBlocks ++ num n ++ '.' :: t) =
        .ok (keyLayer ++ num (j + 1) ++ ['.'] ++ num p ++ '.' :: t)) ∧
    (depth.sum ≤ n → ofaBlock depth (keyBlocks ++ num n ++ '.' :: t) = .error .key) := by
  simp only [keyBlocks_eq, keyLayer_eq] at *
  have e : blocks ++ num n ++ '.' :: t = blocks ++ (num n ++ '.' :: t) := by
    rw [List.append_assoc]
  refine ⟨?_, ?_⟩
  · intro j p hj hp hn
    have hr := replace_start (blocks ++ num n) (layerName (j + 1) p) ('.' :: t)
      (by simp [blocks]) (once_append _ _ _ _ h)
    rw [e] at hr ⊢
    unfold ofaBlock
    rw [if_pos (has_blocks_word _), second_blocks]
    dsimp only
    have hg : tableGet (table depth 0 1) (num n) = some (n, j + 1, p) := by
      rw [hn]
      exact tableGet_hit depth j p hj hp
    rw [hg]
    dsimp only
    rw [hr]
    simp [layerName, layer, List.append_assoc]
  · intro hn
    rw [e]
    unfold ofaBlock
    rw [if_pos (has_blocks_word _), second_blocks]
    dsimp only
    rw [tableGet_miss depth n hn]

example : Once blocks [] (num 7 ++ '.' :: "conv.weight".toList) ∧
    ofaBlock [1, 4, 4] "blocks.7.conv.weight".toList = .ok "layer3.2.conv.weight".toList :=
  ⟨once_of _ _ _ (by decide +kernel), by decide +kernel⟩

/-- DISAGREEMENT: the number of a block is taken from the second part of the key, wherever
`blocks` occurs. A checkpoint whose keys have a part in front of `blocks` (as saved from a
model wrapped for data parallel training) is not converted for any depths. -/
theorem C82_ofa_wrapped_fails (depth : List ℕ) (a t : Str) (ha : '.' ∉ a) :
    ofaBlock depth (a ++ '.' :: (keyBlocks ++ t)) = .error .key := by
  simp only [keyBlocks_eq]
  unfold ofaBlock
  rw [if_pos ((has_iff _ _).mpr ⟨a ++ ['.'], '.' :: t, by simp [blocks, List.append_assoc]⟩),
    show second (a ++ '.' :: (blocks ++ t)) = some ['b', 'l', 'o', 'c', 'k', 's'] from
      second_eq a ['b', 'l', 'o', 'c', 'k', 's'] t ha (by decide)]
  dsimp only
  rw [tableGet_word _ _ 'b' (by decide) (by decide)]

example : ofaBlock [1, 4, 4] "module.blocks.7.conv.weight".toList = .error .key := by
  decide +kernel

/-- C82, AttentiveNAS: with depths 2, 5, 6, 6, 8, 8 and 2, block number
`depth[0] + … + depth[j-1] + p` becomes position `p` of layer `j + 1`, also when the number
of another block begins with the same digits; keys without blocks stay. -/
theorem C82_attentive :
    (∀ a t j p, ∀ hj : j < attentiveDepth.length, p < attentiveDepth[j] →
      Once keyModule [] (a ++ keyBlocks ++ (num ((attentiveDepth.take j).sum + p) ++ '.' :: t)) →
      Once keyBlocks (keyBackbone ++ a) (num ((attentiveDepth.take j).sum + p) ++ '.' :: t) →
      attentiveKey (keyModule ++ (a ++ keyBlocks ++
          (num ((attentiveDepth.take j).sum + p) ++ '.' :: t))) =
        keyBackbone ++ a ++ (keyLayer ++ num (j + 1) ++ ['.'] ++ num p)
          ++ '.' :: t) ∧
    (∀ r, Once keyModule [] r → Never keyBlocks (keyBackbone ++ r) →
      attentiveKey (keyModule ++ r) = keyBackbone ++ r) := by
  simp only [keyBackbone_eq, keyBlocks_eq, keyLayer_eq, keyModule_eq]
  refine ⟨?_, ?_⟩
  · intro a t j p hj hp hm hb
    unfold attentiveKey
    rw [replace_start mod _ _ (by simp [mod]) hm]
    have hmem : ((attentiveDepth.take j).sum + p, j + 1, p) ∈ table attentiveDepth 0 1 :=
      (table_mem _ _ _ _ _ _).mpr ⟨j, hj, hp, by omega, by omega⟩
    have hf := attentive_find _ hmem
    dsimp only at hf
    rw [← find_dot attentiveRules attentive_dot _ t] at hf
    have := chain_hit attentiveRules (arch ++ backbone ++ a) _ _ ('.' :: t) hb hf
    rw [show arch ++ backbone ++ (a ++ blocks ++
        (num ((attentiveDepth.take j).sum + p) ++ '.' :: t)) =
      arch ++ backbone ++ a ++ blocks ++ (num ((attentiveDepth.take j).sum + p) ++ '.' :: t) by
        simp only [List.append_assoc]]
    rw [this]
    simp [layerName, layer, List.append_assoc]
  · intro r hm hb
    unfold attentiveKey
    rw [replace_start mod _ _ (by simp [mod]) hm, chain_none _ _ hb]

example : Once mod [] "blocks.12.conv.weight".toList ∧
    attentiveKey "module.blocks.12.conv.weight".toList =
      "architecture.backbone.layer3.5.conv.weight".toList ∧
    attentiveKey "module.blocks.1.conv.weight".toList =
      "architecture.backbone.layer1.1.conv.weight".toList :=
  ⟨once_of _ _ _ (by decide +kernel), by decide +kernel, by decide +kernel⟩

/-- C82, BigNAS: block `d` of the seven becomes layer `d + 1`; keys without blocks stay. Missing: numbers of two digits and
names ending in `model`, see `C82_bignas_violated`. -/
theorem C82_bignas_partial :
    (∀ a t d, d < 7 → Once keyBg [] (a ++ keyBlocks ++ (num d ++ '.' :: t)) →
      Once keyBlocks (keyArch ++ a) (num d ++ '.' :: t) →
      bignasKey (keyBg ++ (a ++ keyBlocks ++ (num d ++ '.' :: t))) =
        keyArch ++ a ++ (keyLayer ++ num (d + 1)) ++ '.' :: t) ∧
    (∀ r, Once keyBg [] r → Never keyBlocks (keyArch ++ r) →
      bignasKey (keyBg ++ r) = keyArch ++ r) := by
  simp only [keyArch_eq, keyBg_eq, keyBlocks_eq, keyLayer_eq]
  refine ⟨?_, ?_⟩
  · intro a t d hd hm hb
    unfold bignasKey
    rw [replace_start model _ _ (by simp [model]) hm]
    have := chain_hit bignasRules (arch ++ a) _ _ ('.' :: t) hb (bignas_find d hd _)
    rw [show arch ++ (a ++ blocks ++ (num d ++ '.' :: t)) =
      arch ++ a ++ blocks ++ (num d ++ '.' :: t) by simp only [List.append_assoc]]
    rw [this]
  · intro r hm hb
    unfold bignasKey
    rw [replace_start model _ _ (by simp [model]) hm, chain_none _ _ hb]

example : Once model [] "backbone.blocks.3.conv.weight".toList ∧
    bignasKey "model.backbone.blocks.3.conv.weight".toList =
      "architecture.backbone.layer4.conv.weight".toList :=
  ⟨once_of _ _ _ (by decide +kernel), by decide +kernel⟩

/-- DISAGREEMENT: a block is recognised by the first digit of its number, and `model.` is
replaced inside of names too. Block `10` becomes layer `20`, and a part whose name ends in
`model` is renamed. -/
theorem C82_bignas_violated :
    (∀ a t d, d < 7 → Once keyBlocks a (num d ++ t) →
      chain bignasRules (a ++ keyBlocks ++ (num d ++ t)) =
        a ++ (keyLayer ++ num (d + 1)) ++ t) ∧
    bignasKey "model.blocks.10.weight".toList = "architecture.layer20.weight".toList ∧
    bignasKey "model.submodel.weight".toList =
      "architecture.subarchitecture.weight".toList := by
  simp only [keyBlocks_eq, keyLayer_eq]
  refine ⟨?_, by decide +kernel, by decide +kernel⟩
  intro a t d hd hb
  exact chain_hit bignasRules a _ _ t hb (bignas_find d hd _)

end Verif.Ckpt
