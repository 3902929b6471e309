import Verif.Policy.Spec
import Verif.Os.Bind
/-!
# Memory policies (C51)
-/
namespace Verif.Policy
open Verif.Os

/-- C51. With the bind policy, or without a policy, all memory comes from the nodes of the memspace only. -/
theorem C51_bind {sp : Space} (hsp : sp ≠ .highestCapacity) {ids : List Nat} (hne : ids ≠ []) {policy : Option Policy}
    (hp : policy = some .bind ∨ (policy = none ∧ sp ≠ .hostAll)) (all : List Nat) (P sum n fuel : Nat) :
    Rules sp ids policy all P sum n fuel [⟨0, n * P, .only ids⟩] := by
  have hlist : params sp ids policy = some ⟨.bind, ids, [], 0⟩ := by
    rcases hp with rfl | ⟨rfl, h⟩
    · simp [params, hne, hsp]
    · simp [params, hne, hsp, h]
  refine ⟨_, ⟨.bind, .bind, true, [ids], [], 0⟩, _, hlist, ?_, rfl, rfl⟩
  have : ids.isEmpty = false := by simpa using hne
  simp [translate, validMode, this, dedicated, hwPolicy, strict, nodesets, hne]

/-- C51. With the preferred policy all memory comes from the nodes of the memspace if they have memory. -/
theorem C51_preferred {sp : Space} (hsp : sp ≠ .highestCapacity) {ids : List Nat} (hne : ids ≠ []) (all : List Nat)
    (P sum n fuel : Nat) : Rules sp ids (some .preferred) all P sum n fuel [⟨0, n * P, .prefer ids⟩] := by
  refine ⟨⟨.preferred, ids, [], 0⟩, ⟨.preferred, .bind, false, [ids], [], 0⟩, _, ?_, ?_, rfl, rfl⟩
  · simp [params, hne, hsp]
  · simp [translate, validMode, dedicated, hwPolicy, strict, nodesets, hne]

/-- C51. Without a policy, nothing is asked of the kernel for the memspace of all host memory. -/
theorem C51_default {ids : List Nat} (hne : ids ≠ []) (all : List Nat) (P sum n fuel : Nat) :
    Rules .hostAll ids none all P sum n fuel [] := by
  refine ⟨⟨.default, [], [], 0⟩, ⟨.default, .default, false, [all], [], 0⟩, _, ?_, ?_, rfl, rfl⟩
  · simp [params, hne]
  · simp [translate, validMode, dedicated, hwPolicy, strict, nodesets]

/-- C51. With the interleave policy and no part size the pages come from the nodes of the memspace in turn. -/
theorem C51_interleave {sp : Space} (hsp : sp ≠ .highestCapacity) {ids : List Nat} (hne : ids ≠ []) (all : List Nat)
    (P sum n fuel : Nat) : Rules sp ids (some (.interleave 0)) all P sum n fuel [⟨0, n * P, .inTurn ids⟩] := by
  refine ⟨⟨.interleave, ids, [], 0⟩, ⟨.interleave, .interleave, false, [ids], [], 0⟩, _, ?_, ?_, rfl, rfl⟩
  · simp [params, hne, hsp]
  · have : ids.isEmpty = false := by simpa using hne
    simp [translate, validMode, this, dedicated, hwPolicy, strict, nodesets, hne]

theorem tiles_map {α β : Type} {bs : List (Bind α)} {lo hi : Nat} (g : α → β) (h : Tiles bs lo hi) :
    Tiles (bs.map fun b => ⟨b.addr, b.size, g b.node⟩) lo hi := by
  induction bs generalizing lo with
  | nil => exact h
  | cons b bs ih => exact ⟨h.1, h.2.1, ih h.2.2⟩

/-- C51. With the interleave policy and a part size: the parts of the allocation, rounded up to pages, come from the
nodes of the memspace in turn and from them only; the first node depends on what was allocated before. -/
theorem C51_interleaveParts {sp : Space} (hsp : sp ≠ .highestCapacity) {ids : List Nat} (hne : ids ≠ []) {s P n : Nat}
    (hs : 0 < s) (hP : 0 < P) (hn : 0 < n) (h64 : n * P < 2 ^ 64) (hs64 : s + P ≤ 2 ^ 64) (all : List Nat) (sum : Nat)
    {fuel : Nat} (hf : n * P ≤ fuel) {part : Nat} (hpart : IsPageEnd P s part) :
    ∃ rules, Rules sp ids (some (.interleave s)) all P sum n fuel rules ∧ Tiles rules 0 (n * P) ∧
      ∀ r ∈ rules, ∀ x, r.addr ≤ x → x < r.addr + r.size →
        ∃ node, ids[(sum / s + x / part) % ids.length]? = some node ∧ r.node = .only [node] := by
  have hlen : 0 < ids.length := List.length_pos_iff.2 hne
  have he : ids.isEmpty = false := by simpa using hne
  have hp : params sp ids (some (.interleave s)) = some ⟨.interleave, ids, [], s⟩ := by
    simp [params, hne, hsp]
  have hru : ¬ roundUp P s % W < s := by
    obtain ⟨h1, h2, h3⟩ := roundUp_spec hP s
    have : roundUp P s < W := by
      show _ < 2 ^ 64
      omega
    rw [Nat.mod_eq_of_lt this]
    omega
  have ht : translate P all ⟨.interleave, ids, [], s⟩ =
      some ⟨.interleave, .bind, true, ids.map fun n => [n], [], s⟩ := by
    simp [translate, validMode, he, hru, dedicated, hs, hwPolicy, strict, nodesets, hne]
  have hnP : 0 < n * P := Nat.mul_pos hn hP
  obtain ⟨bs, e1, e2, e3⟩ := C29_interleave (sum := sum) hlen hs hP hnP h64 hf hpart
  by_cases h1 : ids.length = 1
  · obtain ⟨a, rfl⟩ := List.length_eq_one_iff.1 h1
    refine ⟨[⟨0, n * P, .only [a]⟩], ⟨_, _, _, hp, ht, rfl, rfl⟩, ⟨rfl, hnP, by show _ = _; simp⟩, ?_⟩
    intro r hr x _ _
    rw [List.mem_singleton] at hr
    subst hr
    exact ⟨a, by simp [Nat.mod_one], rfl⟩
  · refine ⟨_, ⟨_, _, bs.map (fun b => ⟨b.addr, b.size, (((ids.map fun n => [n])[b.node]?).getD [])⟩), hp, ht, ?_, rfl⟩,
      ?_, ?_⟩
    · unfold binds
      simp only [reduceCtorEq, if_false]
      split
      · rename_i set hset
        exfalso
        apply h1
        have := congrArg List.length hset
        simpa using this
      · rw [if_pos trivial, List.length_map, e1]
        rfl
    · exact tiles_map _ (tiles_map (fun i => ((ids.map fun n => [n])[i]?).getD []) e2)
    · intro r hr x hx1 hx2
      simp only [List.map_map, List.mem_map, Function.comp] at hr
      obtain ⟨b, hb, rfl⟩ := hr
      obtain ⟨g1, g2⟩ := e3 b hb x hx1 hx2
      refine ⟨ids[b.node]'g1, ?_, ?_⟩
      · rw [← g2, List.getElem?_eq_getElem g1]
      · simp [ruleOf, List.getElem?_eq_getElem g1]

theorem flatten_single (ids : List Nat) : (ids.map fun n => [n]).flatten = ids := by
  induction ids with
  | nil => rfl
  | cons a l ih =>
    rw [List.map_cons, List.flatten_cons, ih]
    rfl

/-- C51. With the split policy: every page comes only from the nodes whose share of the allocation has a part of the page,
and from no node outside the memspace. The shares are those of the partitions given, or equal shares of all nodes. Missing:
sizes for which pages times weight does not fit in 64 bits. -/
theorem C51_split_partial {sp : Space} (hsp : sp ≠ .highestCapacity) {ids : List Nat} (hne : ids ≠ [])
    {given parts : List Part} (hw : ∀ p ∈ given, 0 < p.weight ∧ p.target ∈ ids)
    (hparts : (given = [] ∧ parts = ids.map fun n => ⟨1, n⟩) ∨ (given ≠ [] ∧ parts = given)) {n P : Nat} (h0 : 0 < n)
    (hP : 0 < P) (hsz : n * P < 2 ^ 64) (hmul : ∀ p ∈ parts, n * p.weight < 2 ^ 64)
    (hsum : 2 * (parts.map Part.weight).sum ≤ 2 ^ 64) (all : List Nat) (sum : Nat) {fuel : Nat} (hf : n ≤ fuel) :
    ∃ rules, Rules sp ids (some (.split given)) all P sum n fuel rules ∧ Tiles rules 0 (n * P) ∧
      ∀ r ∈ rules, ∀ q, r.addr ≤ q * P → q * P < r.addr + r.size →
        ∃ nodes, r.node = .only nodes ∧ nodes ≠ [] ∧ (∀ t ∈ nodes, t ∈ ids) ∧
          ∀ t, t ∈ nodes ↔ ∃ j, Overlaps parts n q j ∧ (parts[j]?).map Part.target = some t := by
  have he : ids.isEmpty = false := by simpa using hne
  have hany : given.any (fun p => p.weight == 0 || !ids.contains p.target) = false := by
    rw [List.any_eq_false]
    intro p hp
    obtain ⟨h1, h2⟩ := hw p hp
    simp [h2]
    omega
  have hi : initPartitions ids given = some parts := by
    unfold initPartitions
    rw [if_neg (by rw [hany]; simp)]
    rcases hparts with ⟨h1, h2⟩ | ⟨h1, h2⟩
    · rw [if_pos h1, h2]
    · rw [if_neg h1, h2]
  have hp : params sp ids (some (.split given)) = some ⟨.split, ids, given, 0⟩ := by
    simp [params, hne, hsp]
  have ht : translate P all ⟨.split, ids, given, 0⟩ =
      some ⟨.split, .bind, true, ids.map fun n => [n], parts, 0⟩ := by
    unfold translate
    simp only [validMode, he, Bool.not_false, reduceCtorEq, if_false, false_and, dedicated, hwPolicy, strict, nodesets,
      if_neg hne, if_true]
    rw [if_neg (by rw [hany]; simp)]
    rcases hparts with ⟨h1, h2⟩ | ⟨h1, h2⟩
    · rw [if_pos h1, h2]
      simp
    · rw [if_neg h1, h2]
      simp
  have hsub : ∀ (j : Nat) (t : Nat), (parts[j]?).map Part.target = some t → t ∈ ids := by
    intro j t hj
    have : ∀ p ∈ parts, p.target ∈ ids := by
      rcases hparts with ⟨_, h2⟩ | ⟨_, h2⟩
      · rw [h2]
        intro p hp
        obtain ⟨x, hx, rfl⟩ := List.mem_map.1 hp
        exact hx
      · rw [h2]
        exact fun p hp => (hw p hp).2
    cases hjj : parts[j]? with
    | none => rw [hjj] at hj; cases hj
    | some p =>
      rw [hjj] at hj
      cases hj
      exact this p (List.mem_of_getElem? hjj)
  obtain ⟨bs, e1, e2, e3⟩ := C28_split_partial hne hi h0 hP hsz hmul hsum hf
  have hb : binds ⟨.split, .bind, true, ids.map fun n => [n], parts, 0⟩ P sum n fuel = some bs := by
    unfold binds
    simp only [reduceCtorEq, if_false]
    split
    · rename_i set hset
      have h1 : ids.length = 1 := by
        have := congrArg List.length hset
        simpa using this
      obtain ⟨a, rfl⟩ := List.length_eq_one_iff.1 h1
      unfold splitBinds at e1
      rw [if_pos h1] at e1
      simp only [List.map_cons, List.map_nil, List.cons.injEq, and_true] at hset
      rw [← hset]
      exact e1
    · rw [flatten_single]
      exact e1
  refine ⟨_, ⟨_, _, _, hp, ht, hb, rfl⟩, tiles_map _ e2, ?_⟩
  intro r hr q hq1 hq2
  obtain ⟨b, hb, rfl⟩ := List.mem_map.1 hr
  obtain ⟨⟨t, ht⟩, h4⟩ := (e3 b hb).2.2 q hq1 hq2
  refine ⟨b.node, rfl, List.ne_nil_of_mem ht, ?_, h4⟩
  intro u hu
  obtain ⟨j, _, hj⟩ := (h4 u).1 hu
  exact hsub j u hj

/-- C51. Empty memspaces, unknown policies, and split partitions that have no weight or name a node outside the memspace
are refused. -/
theorem C51_refused {sp : Space} {ids : List Nat} {policy : Option Policy} {all : List Nat} {P : Nat}
    (h : ids = [] ∨ policy = some .unknown ∨
      ∃ parts, policy = some (.split parts) ∧ ∃ p ∈ parts, p.weight = 0 ∨ p.target ∉ ids) :
    Refused sp ids policy all P := by
  intro p hp
  unfold params at hp
  rcases h with h | rfl | ⟨parts, rfl, q, hq, hbad⟩
  · rw [if_pos h] at hp
    cases hp
  · split at hp
    · cases hp
    · cases hp
  · split at hp
    · cases hp
    · simp only [Option.isNone_some, Bool.false_eq_true, and_false, if_false, Option.some.injEq] at hp
      subst hp
      generalize hl : List.take (if sp = Space.highestCapacity then 1 else ids.length) ids = l
      have hany : parts.any (fun q => q.weight == 0 || !l.contains q.target) = true := by
        rw [List.any_eq_true]
        refine ⟨q, hq, ?_⟩
        rcases hbad with h | h
        · simp [h]
        · have : ¬ q.target ∈ l := fun hc => h (List.mem_of_mem_take (hl ▸ hc))
          simp [this]
      unfold translate
      by_cases hv : validMode Mode.split l = false
      · rw [if_pos hv]
      · rw [if_neg hv, if_pos hany]

/-- C51 is false for the memspace of highest capacity: with every policy the memory comes from its first node only, so that
nothing is interleaved. -/
theorem C51_highestCapacity_violated (a b : Nat) (ids : List Nat) (all : List Nat) (P sum n fuel : Nat) :
    Rules .highestCapacity (a :: b :: ids) (some (.interleave 0)) all P sum n fuel [⟨0, n * P, .inTurn [a]⟩] ∧
    Rules .highestCapacity (a :: b :: ids) (some .bind) all P sum n fuel [⟨0, n * P, .only [a]⟩] := by
  constructor
  · refine ⟨⟨.interleave, [a], [], 0⟩, ⟨.interleave, .interleave, false, [[a]], [], 0⟩, _, rfl, ?_, rfl, rfl⟩
    simp [translate, validMode, dedicated, hwPolicy, strict, nodesets]
  · exact ⟨⟨.bind, [a], [], 0⟩, ⟨.bind, .bind, true, [[a]], [], 0⟩, _, rfl, by
      simp [translate, validMode, dedicated, hwPolicy, strict, nodesets], rfl, rfl⟩

/-- C51. A policy starts with the default settings, keeps the settings given last, and refuses settings of another type of
policy. -/
theorem C51_policy : (∀ s, setPartSize (create 0) s = some (.interleave s)) ∧
    (∀ parts, setPartitions (create 3) parts = some (.split parts)) ∧
    (∀ s t, (setPartSize (create 0) s).bind (setPartSize · t) = some (.interleave t)) ∧
    (∀ ty s, setPartSize (create ty) s ≠ none ↔ ty = 0) ∧
    (∀ ty parts, setPartitions (create ty) parts ≠ none ↔ ty = 3) ∧
    (∀ a b, (setPartitions (create 3) a).bind (setPartitions · b) = some (.split b)) ∧
    create 0 = .interleave 0 ∧ create 1 = .bind ∧ create 2 = .preferred ∧ create 3 = .split [] := by
  refine ⟨fun _ => rfl, fun _ => rfl, fun _ _ => rfl, ?_, ?_, fun _ _ => rfl, rfl, rfl, rfl, rfl⟩
  · intro ty s
    match ty with
    | 0 => simp [create, setPartSize]
    | 1 => simp [create, setPartSize]
    | 2 => simp [create, setPartSize]
    | 3 => simp [create, setPartSize]
    | n + 4 => simp [create, setPartSize]
  · intro ty parts
    match ty with
    | 0 => simp [create, setPartitions]
    | 1 => simp [create, setPartitions]
    | 2 => simp [create, setPartitions]
    | 3 => simp [create, setPartitions]
    | n + 4 => simp [create, setPartitions]

/-- Nodes 4 and 7, two pages: equal shares. -/
example : ∃ rules, Rules .other [4, 7] (some (.split [])) [0, 4, 7] 4096 0 2 2 rules ∧
    rules = [⟨0, 4096, .only [4]⟩, ⟨4096, 4096, .only [7]⟩] :=
  ⟨_, ⟨⟨.split, [4, 7], [], 0⟩, ⟨.split, .bind, true, [[4], [7]], [⟨1, 4⟩, ⟨1, 7⟩], 0⟩, [⟨0, 4096, [4]⟩, ⟨4096, 4096, [7]⟩],
    rfl, by decide +kernel, by decide +kernel, rfl⟩, rfl⟩

/-- Three nodes in turn with a part size that is not a number of pages. -/
example : ∃ rules, Rules .hostAll [4, 7, 9] (some (.interleave 5000)) [4, 7, 9] 4096 10000 5 20480 rules ∧
    Tiles rules 0 20480 ∧ ∀ r ∈ rules, ∀ x, r.addr ≤ x → x < r.addr + r.size →
      ∃ node, [4, 7, 9][(10000 / 5000 + x / 8192) % 3]? = some node ∧ r.node = .only [node] :=
  C51_interleaveParts (by decide) (by decide) (by decide) (by decide) (by decide) (by decide) (by decide) _ _
    (by decide) ⟨by decide, by decide, by decide⟩

/-- Weights 1 and 2, three pages and a half per share. -/
example : ∃ rules, Rules .other [4, 7] (some (.split [⟨1, 7⟩, ⟨2, 4⟩])) [4, 7] 4096 0 10 10 rules ∧
    Tiles rules 0 40960 ∧ ∀ r ∈ rules, ∀ q, r.addr ≤ q * 4096 → q * 4096 < r.addr + r.size →
      ∃ nodes, r.node = .only nodes ∧ nodes ≠ [] ∧ (∀ t ∈ nodes, t ∈ [4, 7]) ∧
        ∀ t, t ∈ nodes ↔ ∃ j, Overlaps [⟨1, 7⟩, ⟨2, 4⟩] 10 q j ∧ ([(⟨1, 7⟩ : Part), ⟨2, 4⟩][j]?).map Part.target = some t :=
  C51_split_partial (by decide) (by decide) (by decide) (.inr ⟨by decide, rfl⟩) (by decide) (by decide) (by decide)
    (by decide) (by decide) _ _ (by decide)

end Verif.Policy
