import Verif.CoarseMem.Reach
import Verif.Coarse.Props
/-!
# Lemmas for the coarse allocator, pointer by pointer: it does what the model with lists does
-/
namespace Verif.CoarseMem
open Verif.Coarse (Res Cfg)
open Verif.Coarse.Index (Ent)
open Verif.Coarse.Spec (Region Fresh)

variable {s s' : St} {A : List (Addr × Nat × Addr)} {E : List Ent}

/-- No block is given back or split that is used and on a list. -/
def Safe (s : St) (op : Op) : Prop :=
  ∀ p, ((∃ n, op = .free p n) ∨ ∃ t f, op = .split p t f) → p ≠ 0 → ∀ b B, s.blk b = some B → B.data = p → B.used = true → B.fl = 0

/-- The two kinds of calls that look for a free block. -/
def Looks (op : Op) : Prop := (∃ size a, op = .alloc size a) ∨ ∃ size, op = .addUpstream size

/-- A call does what it does in the model with lists. -/
theorem call_sim {cfg : Cfg} {op : Op} {env : Env} {host : List (Addr × Bool)} (hI : Inv s A E) (hs : Safe s op) (hN : Looks op → NoEmpty s) :
    ∃ r s' A' E', Runs cfg s op env host r s' ∧ Inv s' A' E' ∧ (s'.refused = false → s.refused = false) ∧
      ∃ ho g ho2 g2, (s'.refused = false → ∀ x, ho x = true ∧ ho2 x = true) ∧ ((∀ x ∈ host, x.2 = false) → g = false) ∧
        Same (cstep cfg (cenv env ho g) (cenv env ho2 g2) (abs s A E) op) (abs s' A' E') r := by
  have hI' : Inv { s with host := host } A E := hI.same rfl rfl rfl rfl fun h => h
  cases op with
  | alloc size a =>
    have hN := hN (.inl ⟨size, a, rfl⟩)
    rcases alloc_inv cfg env size a hI' with ⟨hx, -⟩ | ⟨r, s', A', E', g1, g2, g3, -, -, g6⟩
    · exact absurd hN hx
    · obtain ⟨ho, g, k1, k2, k3⟩ := g6 hN
      exact ⟨r, s', A', E', g1, g2, g3.ref, ho, g, fun _ => true, false, fun h x => ⟨k1 h x, rfl⟩, k2, k3⟩
  | free p bytes =>
    by_cases hp0 : p = 0
    · subst hp0
      refine ⟨{ res := .success }, { s with host := host }, A, E, ⟨0, fun _ _ => rfl⟩, hI', fun h => h, fun _ => true, false, fun _ => true, false,
        fun _ _ => ⟨rfl, rfl⟩, fun _ => rfl, rfl, rfl, rfl⟩
    · obtain ⟨r, s', A', E', g1, g2, g3, -, -, k, kx, g6⟩ := free_inv env p bytes hI' (hs p (.inl ⟨bytes, rfl⟩) hp0)
      exact ⟨r, s', A', E', g1, g2, g3.ref, fun _ => k, false, fun _ => true, false, fun h x => ⟨kx h, rfl⟩, fun _ => rfl, g6 _ _ rfl⟩
  | split p total first =>
    by_cases hp0 : p = 0
    · subst hp0
      refine ⟨{ res := .invalidArgument }, { s with host := host }, A, E, ⟨0, fun _ _ => ?_⟩, hI', fun h => h, fun _ => true, false, fun _ => true, false,
        fun _ _ => ⟨rfl, rfl⟩, fun _ => rfl, ?_⟩
      · unfold step run split
        dsimp only
        rw [if_pos (.inl rfl)]
        rfl
      · unfold cstep Coarse.step Coarse.split
        dsimp only
        rw [if_pos (.inl rfl)]
        exact ⟨rfl, rfl, rfl⟩
    · obtain ⟨r, s', A', g1, g2, -, g3, -, k, kx, g6⟩ := split_inv env p total first hI' (hs p (.inr ⟨total, first, rfl⟩) hp0)
      exact ⟨r, s', A', E, g1, g2, g3.ref, fun _ => k, false, fun _ => true, false, fun h x => ⟨kx h, rfl⟩, fun _ => rfl, g6 _ _ rfl⟩
  | merge low high total =>
    obtain ⟨r, s', A', E', g1, g2, -, g3, -, -, g6⟩ := merge_inv env low high total hI'
    exact ⟨r, s', A', E', g1, g2, g3.ref, fun _ => true, false, fun _ => true, false, fun _ _ => ⟨rfl, rfl⟩, fun _ => rfl, g6 _ _⟩
  | addFixed addr size =>
    obtain ⟨r, s', A', E', g1, g2, g3, -, ho, k1, k2⟩ := addFixed_inv cfg env addr size hI'
    exact ⟨r, s', A', E', g1, g2, g3.ref, ho, false, fun _ => true, false, fun h x => ⟨k1 h x, rfl⟩, fun _ => rfl, k2 _⟩
  | addUpstream size =>
    have hN := hN (.inr ⟨size, rfl⟩)
    rcases addUpstream_inv cfg env size hI' with ⟨hx, -⟩ | ⟨r, s', A', E', g1, g2, g3, -, g6⟩
    · exact absurd hN hx
    · obtain ⟨ho, g, ho2, g2', k1, k2, k3⟩ := g6 hN
      exact ⟨r, s', A', E', g1, g2, g3.ref, ho, g, ho2, g2', k1, k2, k3⟩

/-- The abstract state shows the memory. -/
theorem Inv.shows (h : Inv s A E) : Shows s (abs s A E) := by
  obtain ⟨F, hX⟩ := h.lists
  have hE : ∀ n ∈ E, ∃ B, s.blk n.blk = some B ∧ B.fl = n.elem ∧ B.size = n.size ∧ (n.size, dataAt s n.blk) = (B.size, B.data) := by
    intro n hn
    obtain ⟨B, b1, b2, b3⟩ := hX.ent n hn
    refine ⟨B, b1, b2, b3, ?_⟩
    unfold dataAt
    rw [b1, b3]
    rfl
  refine ⟨h.keyed.sorted, fun x => ?_, fun e => ?_, ?_, rfl, rfl⟩
  · show x ∈ A.map _ ↔ _
    rw [List.mem_map]
    constructor
    · rintro ⟨y, hy, rfl⟩
      obtain ⟨-, B, b1, -⟩ := h.desc y.2 (List.mem_map_of_mem hy)
      exact ⟨y.2.2, B, b1, absB_eq b1⟩
    · rintro ⟨b, B, b1, rfl⟩
      obtain ⟨-, n, hn⟩ := h.node b1
      exact ⟨_, hn, absB_eq b1⟩
  · show e ∈ E.map _ ↔ _
    rw [List.mem_map]
    constructor
    · rintro ⟨n, hn, rfl⟩
      obtain ⟨B, b1, b2, -, b4⟩ := hE n hn
      exact ⟨n.blk, B, b1, fun e => (hX.elem hn).1 (b2 ▸ e), b4⟩
    · rintro ⟨b, B, b1, b2, rfl⟩
      obtain ⟨n, hn, rfl⟩ := hX.fl b B b1 b2
      obtain ⟨C, c1, -, -, c4⟩ := hE n hn
      rw [b1] at c1
      cases c1
      exact ⟨n, hn, c4⟩
  · show (E.map _).Nodup
    have := hX.nodup
    rw [List.Nodup, List.pairwise_map] at this ⊢
    refine List.Pairwise.imp_of_mem ?_ this
    intro x y hx hy hne e
    obtain ⟨B, b1, b2, -, b4⟩ := hE x hx
    obtain ⟨C, c1, c2, -, c4⟩ := hE y hy
    have e2 : B.data = C.data := by
      have := (b4.symm.trans e).trans c4
      exact congrArg Prod.snd this
    have := h.data_inj b1 c1 e2
    rw [this, c1] at b1
    cases b1
    exact hne (b2.symm.trans c2)

/-! ## What the model with lists reports as new memory -/

theorem allocFrom_got (env : Coarse.Env) (st : Coarse.St) (b : Coarse.Block) (size a : Nat) : (Coarse.allocFrom env st b size a).2.got = none := by
  unfold Coarse.allocFrom
  split
  · split
    · split <;> rfl
    · rfl
  · rfl

theorem alloc_got {cfg : Cfg} {env : Coarse.Env} {st : Coarse.St} {size align : Nat} {x : Nat × Nat}
    (h : (Coarse.alloc cfg env st size align).2.got = some x) : (Coarse.alloc cfg env st size align).2.res = .success ∧
      x = ((Coarse.alloc cfg env st size align).2.ptr, size) ∧
      ∃ a, Coarse.effAlign cfg.page align = some a ∧ env.upAlloc size a = .ok (Coarse.alloc cfg env st size align).2.ptr := by
  have hup : ∀ (st : Coarse.St) a, Coarse.effAlign cfg.page align = some a → (Coarse.allocUpstream cfg env st size a).2.got = some x →
      (Coarse.allocUpstream cfg env st size a).2.res = .success ∧ x = ((Coarse.allocUpstream cfg env st size a).2.ptr, size) ∧
      ∃ a', Coarse.effAlign cfg.page align = some a' ∧ env.upAlloc size a' = .ok (Coarse.allocUpstream cfg env st size a).2.ptr := by
    intro st a ha h
    unfold Coarse.allocUpstream at h ⊢
    by_cases h1 : cfg.hasAlloc = true
    · rw [if_pos h1] at h ⊢
      cases hp : env.upAlloc size a with
      | error e =>
        rw [hp] at h
        cases h
      | ok p =>
        rw [hp] at h
        dsimp only at h ⊢
        cases hbl : Coarse.addNew env .addNew1 st.blocks p size with
        | none =>
          rw [hbl] at h
          cases h
        | some bl =>
          rw [hbl] at h
          exact ⟨rfl, (Option.some.inj h).symm, a, ha, hp⟩
    · rw [if_neg h1] at h
      cases h
  cases ha : Coarse.effAlign cfg.page align with
  | none =>
    unfold Coarse.alloc at h
    rw [ha] at h
    cases h
  | some a =>
    have hf : ∀ st b, (Coarse.allocFrom env st b size a).2.got = some x → False := by
      intro st b hx
      rw [allocFrom_got] at hx
      cases hx
    rw [← ha]
    have key : Coarse.alloc cfg env st size align = match Coarse.findFree cfg size a st.free with
        | some e => (match Coarse.lookup e.2 st.blocks with
          | some b => if b.size ≥ size then Coarse.allocFrom env (Coarse.unlist st e) { b with listed := false } size a
            else Coarse.allocUpstream cfg env (Coarse.unlist st e) size a
          | none => Coarse.allocUpstream cfg env st size a)
        | none => Coarse.allocUpstream cfg env st size a := by
      unfold Coarse.alloc
      rw [ha]
      rfl
    rw [key] at h ⊢
    cases h1 : Coarse.findFree cfg size a st.free with
    | none =>
      rw [h1] at h
      exact hup st a ha h
    | some e =>
      rw [h1] at h
      dsimp only at h ⊢
      cases h2 : Coarse.lookup e.2 st.blocks with
      | none =>
        rw [h2] at h
        exact hup _ a ha h
      | some b =>
        rw [h2] at h
        dsimp only at h ⊢
        by_cases h3 : b.size ≥ size
        · rw [if_pos h3] at h
          exact (hf _ _ h).elim
        · rw [if_neg h3] at h ⊢
          exact hup _ a ha h

theorem free_out (env : Coarse.Env) (st : Coarse.St) (p n : Nat) : (Coarse.free env st p n).2.got = none := by
  unfold Coarse.free
  split
  · rfl
  · split
    · rfl
    · split
      · rfl
      · split
        · rfl
        · dsimp only
          split <;> rfl

theorem split_got (env : Coarse.Env) (st : Coarse.St) (p t f : Nat) : (Coarse.split env st p t f).2.got = none := by
  unfold Coarse.split
  split
  · rfl
  · split
    · rfl
    · split
      · rfl
      · split
        · rfl
        · split
          · split <;> rfl
          · rfl

theorem merge_got (env : Coarse.Env) (st : Coarse.St) (l h t : Nat) : (Coarse.merge env st l h t).2.got = none := by
  unfold Coarse.merge
  split
  · rfl
  · split
    · split
      · rfl
      · split
        · rfl
        · split
          · rfl
          · rfl
    · rfl

theorem addFixed_got {cfg : Cfg} {env : Coarse.Env} {st : Coarse.St} {addr size : Nat} {x : Nat × Nat}
    (h : (Coarse.addFixed cfg env st addr size).2.got = some x) : x = (addr, size) ∧ size ≠ 0 := by
  unfold Coarse.addFixed at h
  split at h
  · cases h
  · rename_i h1
    split at h
    · cases h
    · split at h
      · cases h
      · dsimp only at h
        exact ⟨(Option.some.inj h).symm, fun e => h1 (.inr e)⟩

end Verif.CoarseMem
