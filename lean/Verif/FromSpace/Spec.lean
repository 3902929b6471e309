import Mathlib.Data.List.Forall2
import Verif.FromSpace.Model
/-! # What a user knows of memspaces, and what a provider from one is created with (C89) -/
namespace Verif.FromSpace

/-- A memspace at `space` with the nodes `ns`: its array of targets, their private data, and the numbers of the nodes. -/
structure HasSpace (h : List (Nat × Cell)) (space : Nat) (ts ps ns : List Nat) : Prop where
  nonnull : space ≠ 0
  arr : ∃ a, get h space = some (.space a ts.length) ∧ (ts ≠ [] → get h a = some (.ptrs ts))
  targets : List.Forall₂ (fun t p => get h t = some (.target p)) ts ps
  nodes : List.Forall₂ (fun p n => get h p = some (.numa n)) ps ns

/-- Blocks are at addresses below `next`, none at NULL. -/
def Ok (st : St) : Prop := 0 < st.next ∧ ∀ e ∈ st.heap, 0 < e.1 ∧ e.1 < st.next

/-- The array of partitions of a split policy is there, and its length fits in 32 bits. -/
def PolOk (h : List (Nat × Cell)) : Option Pol → Prop
  | some ⟨3, _, part, len⟩ => len < 2 ^ 32 ∧ (part = 0 ∨ ∃ l, get h part = some (.parts l) ∧ len ≤ l.length)
  | _ => True

/-- The partitions of a split policy. -/
def partsOf (h : List (Nat × Cell)) (part len : Nat) : List (Nat × Nat) :=
  match get h part with
  | some (.parts l) => l.take len
  | _ => []

/-- The settings for a memspace with the nodes `ns`: without a policy the default for the memspace of all nodes, otherwise binding; of
the memspace of the highest capacity only the first node is used. `none`: the policy is refused. -/
inductive Wanted (h : List (Nat × Cell)) (all cap space : Nat) (ns : List Nat) : Option Pol → Settings → Prop
  | hostAll : space = all → Wanted h all cap space ns none ⟨0, [], 0, []⟩
  | plain : space ≠ all → Wanted h all cap space ns none ⟨1, if space = cap then ns.take 1 else ns, 0, []⟩
  | interleave (ps x y : Nat) : Wanted h all cap space ns (some ⟨0, ps, x, y⟩) ⟨2, if space = cap then ns.take 1 else ns, ps, []⟩
  | bind (x y z : Nat) : Wanted h all cap space ns (some ⟨1, x, y, z⟩) ⟨1, if space = cap then ns.take 1 else ns, 0, []⟩
  | preferred (x y z : Nat) : Wanted h all cap space ns (some ⟨2, x, y, z⟩) ⟨3, if space = cap then ns.take 1 else ns, 0, []⟩
  | split (x part len : Nat) : (part = 0 → len = 0) →
      Wanted h all cap space ns (some ⟨3, x, part, len⟩) ⟨4, if space = cap then ns.take 1 else ns, 0, partsOf h part len⟩

end Verif.FromSpace
