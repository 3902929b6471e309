import Verif.FromSpace.Props
/-! # C89: a concrete memspace with two nodes, and what cannot be done -/
namespace Verif.FromSpace

/-- A memspace with the nodes 4 and 6, and an array with two partitions. -/
def two : List (Nat × Cell) :=
  [(7, .parts [(1, 4), (3, 6)]), (6, .space 5 2), (5, .ptrs [3, 4]), (4, .target 2), (3, .target 1), (2, .numa 6), (1, .numa 4)]

theorem two_ok (ans : List Bool) : Ok ⟨two, 8, ans⟩ := by
  refine ⟨show 0 < 8 by decide, ?_⟩
  intro e he
  show 0 < e.1 ∧ e.1 < 8
  simp only [two, List.mem_cons, List.not_mem_nil, or_false] at he
  rcases he with rfl | rfl | rfl | rfl | rfl | rfl | rfl <;> decide

theorem two_space : HasSpace two 6 [3, 4] [1, 2] [4, 6] where
  nonnull := by decide
  arr := ⟨5, rfl, fun _ => rfl⟩
  targets := .cons rfl (.cons rfl .nil)
  nodes := .cons rfl (.cons rfl .nil)

/-- A split policy with the two partitions. -/
def splitPol : Option Pol := some ⟨3, 0, 7, 2⟩

theorem splitPol_ok : PolOk two splitPol := ⟨by decide, Or.inr ⟨_, rfl, by decide⟩⟩

theorem split_wanted : Wanted two 100 101 6 [4, 6] splitPol ⟨4, [4, 6], 0, [(1, 4), (3, 6)]⟩ := .split 0 7 2 (by decide)

-- All memory is granted: the provider is at 13, and nothing else is left.
example : providerFrom (fun _ => 0) 100 101 ⟨two, 8, []⟩ 6 splitPol true =
    some (0, 13, ⟨(13, .prov ⟨4, [4, 6], 0, [(1, 4), (3, 6)]⟩) :: two, 14, []⟩) := by decide +kernel
-- Each of the allocations is refused in turn: nothing is left.
example : ((List.range 6).all fun i => decide ((providerFrom (fun _ => 0) 100 101 ⟨two, 8, List.replicate i true ++ [false]⟩ 6 splitPol true).map
    (fun x => (x.1, x.2.1, x.2.2.heap)) = some (1, 0, two))) = true := by decide +kernel
-- The memspace of the highest capacity.
example : providerFrom (fun _ => 0) 100 6 ⟨two, 8, []⟩ 6 none true = some (0, 12, ⟨(12, .prov ⟨1, [4], 0, []⟩) :: two, 13, []⟩) := by
  decide +kernel
-- The memspace of all nodes.
example : providerFrom (fun _ => 0) 6 101 ⟨two, 8, []⟩ 6 none true = some (0, 10, ⟨(10, .prov ⟨0, [], 0, []⟩) :: two, 11, []⟩) := by
  decide +kernel
-- A policy with another number, partitions at NULL, and a provider that cannot be created.
example : (providerFrom (fun _ => 0) 100 101 ⟨two, 8, []⟩ 6 (some ⟨4, 0, 0, 0⟩) true).map (fun x => (x.1, x.2.1, x.2.2.heap)) = some (3, 0, two) := by
  decide +kernel
example : (providerFrom (fun _ => 0) 100 101 ⟨two, 8, []⟩ 6 (some ⟨3, 0, 0, 2⟩) true).map (fun x => (x.1, x.2.1, x.2.2.heap)) = some (3, 0, two) := by
  decide +kernel
example : (providerFrom (fun _ => 2) 100 101 ⟨two, 8, []⟩ 6 none true).map (fun x => (x.1, x.2.1, x.2.2.heap)) = some (2, 0, two) := by
  decide +kernel

example : ∃ out st', providerFrom (fun _ => 0) 100 101 ⟨two, 8, []⟩ 6 splitPol true = some (0, out, st') :=
  C89_succeeds _ _ _ (two_ok []) two_space (by decide) (by decide) splitPol_ok split_wanted rfl (by simp)

example : targetGet ⟨two, 8, []⟩ 6 1 = some 4 := (C89_targets (st := ⟨two, 8, []⟩) two_space).2.1 1 (by decide)

/-- No memspace gives a pool: whatever its targets are, and although no memory is refused, the call fails. -/
theorem C89_pool_violated {st : St} (hok : Ok st) {space : Nat} {ts ps ns : List Nat} (hs : HasSpace st.heap space ts ps ns)
    (hne : ns ≠ []) (hm : false ∉ st.ans) : ∃ st', poolFrom st space true = some (5, 0, st') := by
  obtain ⟨r, st', h1, _, h3⟩ := C89_pool hok hs
  rcases h3 with ⟨_, h⟩ | ⟨_, h⟩ | ⟨rfl, _⟩
  · exact absurd h hm
  · exact absurd h hne
  · exact ⟨st', h1⟩

example : ∃ st', poolFrom ⟨two, 8, []⟩ 6 true = some (5, 0, st') := C89_pool_violated (two_ok []) two_space (by decide) (by simp)

/-- An array of `n` partitions at 7 and the memspace. -/
def many (n : Nat) : List (Nat × Cell) :=
  [(7, .parts (List.replicate n (1, 4))), (6, .space 5 1), (5, .ptrs [3]), (3, .target 1), (1, .numa 4)]

/-- The number of partitions is cut to 32 bits: with 2 ^ 32 partitions the provider is created without any, and no error. -/
theorem C89_count_violated : ∃ s st', HasSpace (many (2 ^ 32)) 6 [3] [1] [4] ∧
    providerFrom (fun _ => 0) 100 101 ⟨many (2 ^ 32), 8, []⟩ 6 (some ⟨3, 0, 7, 2 ^ 32⟩) true = some (0, 12, st') ∧
    get st'.heap 12 = some (.prov s) ∧ s.parts = [] ∧ partsOf (many (2 ^ 32)) 7 (2 ^ 32) ≠ [] := by
  have key : ∀ n, ∃ s st', HasSpace (many n) 6 [3] [1] [4] ∧
      providerFrom (fun _ => 0) 100 101 ⟨many n, 8, []⟩ 6 (some ⟨3, 0, 7, 2 ^ 32⟩) true = some (0, 12, st') ∧
      get st'.heap 12 = some (.prov s) ∧ s.parts = [] := by
    intro n
    refine ⟨⟨4, [4], 0, []⟩, ⟨(12, .prov ⟨4, [4], 0, []⟩) :: many n, 13, []⟩,
      ⟨by decide, ⟨5, rfl, fun _ => rfl⟩, .cons rfl .nil, .cons rfl .nil⟩, ?_, rfl, rfl⟩
    unfold many
    generalize List.replicate n (1, 4) = l
    rfl
  obtain ⟨s, st', h1, h2, h3, h4⟩ := key (2 ^ 32)
  refine ⟨s, st', h1, h2, h3, h4, ?_⟩
  have : ∀ n, n ≠ 0 → partsOf (many n) 7 n ≠ [] := by
    intro n hn
    have : partsOf (many n) 7 n = (List.replicate n (1, 4)).take n := rfl
    rw [this]
    simp [hn]
  exact this _ (by decide)

end Verif.FromSpace
