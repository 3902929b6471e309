import Verif.CoarseMem.Reach
/-!
# The coarse allocator, pointer by pointer: C76
-/
namespace Verif.CoarseMem
open Verif.Coarse (Res Cfg)

/-- C76. After any history of a careful user (it gives back and splits only what it holds), or of any user when the base allocator gives
zeroed memory, a call has defined behaviour: no descriptor, list element, list head or tree node is used after it was freed or before it was
written, no NULL is read, no loop runs forever (release build: assertions do nothing). The one exception: `coarse_alloc` and `coarse_add_memory_from_provider`
when an empty list of free blocks was left by an earlier refusal of the base allocator. Missing: that this cannot happen
(`C76_emptyList_violated`), and users that give back what they do not hold over memory that is not zeroed (`C76_uninit_violated`). -/
theorem C76_defined_partial {cfg : Cfg} {u : User} {s : St} {held : List Nat} (h : Reach cfg u s held) {op : Op} {host : List (Addr × Bool)}
    (ha : Allowed u held op host) (env : Env) :
    (∃ r s', Runs cfg s op env host r s') ∨
    (Undef cfg s op env host ∧ s.refused = true ∧ ¬ NoEmpty s ∧ ((∃ size a, op = .alloc size a) ∨ ∃ size, op = .addUpstream size)) := by
  obtain ⟨⟨A, E, hI⟩, -, -⟩ := reach_good h
  rcases step_good (cfg := cfg) (env := env) (reach_good h) ha with ⟨h1, h2, h3⟩ | ⟨r, s', g1, -⟩
  · refine .inr ⟨h1, ?_, h2, h3⟩
    cases hr : s.refused with
    | true => rfl
    | false => exact absurd (hI.heads hr) h2
  · exact .inl ⟨r, s', g1⟩

/-- C76. As long as the base allocator has refused nothing, every call is defined and no list is empty. -/
theorem C76_enough {cfg : Cfg} {u : User} {s : St} {held : List Nat} (h : Reach cfg u s held) (hr : s.refused = false) :
    NoEmpty s ∧ ∀ {op : Op} {host : List (Addr × Bool)}, Allowed u held op host → ∀ env, ∃ r s', Runs cfg s op env host r s' := by
  obtain ⟨⟨A, E, hI⟩, -, -⟩ := reach_good h
  refine ⟨hI.heads hr, fun ha env => ?_⟩
  rcases C76_defined_partial h ha env with g | ⟨-, g, -⟩
  · exact g
  · rw [hr] at g
    cases g

/-- C76. What the user holds is one block each: in use, on no list of free blocks. An address that `coarse_alloc` returns is not one of
those. -/
theorem C76_held {cfg : Cfg} {u : User} {s : St} {held : List Nat} (h : Reach cfg u s held) :
    (∀ p ∈ held, ∃ b B, s.blk b = some B ∧ B.data = p ∧ B.used = true ∧ B.fl = 0 ∧ ∀ c C, s.blk c = some C → C.data = p → c = b) ∧
    ∀ {size a : Nat} {env : Env} {host : List (Addr × Bool)} {r : Ret} {s' : St}, Allowed u held (.alloc size a) host →
      Runs cfg s (.alloc size a) env host r s' → r.res = .success → r.ptr ∉ held := by
  obtain ⟨⟨A, E, hI⟩, hH, -⟩ := reach_good h
  refine ⟨fun p hp => ?_, fun {size a env host r s'} ha hrun hr => ?_⟩
  · obtain ⟨b, B, b1, b2, b3, b4⟩ := hH p hp
    exact ⟨b, B, b1, b2, b3, b4, fun c C h1 h2 => hI.data_inj h1 b1 (h2.trans b2.symm)⟩
  · rcases step_good (cfg := cfg) (env := env) (reach_good h) ha with ⟨hx, -⟩ | ⟨r', s2, g1, -, g3⟩
    · exact absurd hx (Ev.not (m := run cfg _ _) hrun)
    · obtain ⟨rfl, rfl⟩ := Ev.unique (m := run cfg _ _) hrun g1
      exact g3 size a rfl hr

/-- C76. After any history: two descriptors never have the same address; the nodes of the tree of blocks are one for each descriptor; the list
elements are one for each descriptor that points to a list element, and the element points back; the nodes of the tree of sizes are one for
each list head. -/
theorem C76_blocks {cfg : Cfg} {u : User} {s : St} {held : List Nat} (h : Reach cfg u s held) :
    (∀ b c B C, s.blk b = some B → s.blk c = some C → B.data = C.data → b = c) ∧
    (∃ node : Addr → Addr, (∀ b, s.blk b ≠ none → (s.tree .all).h (node b) ≠ none) ∧
      (∀ n, (s.tree .all).h n ≠ none → ∃ b, s.blk b ≠ none ∧ node b = n) ∧
      ∀ b c, s.blk b ≠ none → s.blk c ≠ none → node b = node c → b = c) ∧
    (∀ b B, s.blk b = some B → B.fl ≠ 0 → ∃ e, s.elm B.fl = some e ∧ e.blk = b) ∧
    (∀ a e, s.elm a = some e → ∃ B, s.blk e.blk = some B ∧ B.fl = a) ∧
    (∃ node : Addr → Addr, (∀ b, s.hd b ≠ none → (s.tree .fre).h (node b) ≠ none) ∧
      (∀ n, (s.tree .fre).h n ≠ none → ∃ b, s.hd b ≠ none ∧ node b = n) ∧
      ∀ b c, s.hd b ≠ none → s.hd c ≠ none → node b = node c → b = c) := by
  obtain ⟨⟨A, E, hI⟩, -, -⟩ := reach_good h
  obtain ⟨F, hX⟩ := hI.lists
  refine ⟨fun b c B C h1 h2 h3 => hI.data_inj h1 h2 h3, ?_, fun b B h1 h2 => ?_, fun a e h1 => ?_, ?_⟩
  · refine nodes_ok hI.all (P := fun b => s.blk b ≠ none) (fun x hx => ?_) (fun b hb => ?_) fun x hx y hy e => ?_
    · obtain ⟨-, B, b1, -⟩ := hI.desc x hx
      rw [b1]
      nofun
    · obtain ⟨d, hd⟩ := hI.only b hb
      exact ⟨_, hd, rfl⟩
    · obtain ⟨-, B, b1, b2⟩ := hI.desc x hx
      obtain ⟨-, C, c1, c2⟩ := hI.desc y hy
      rw [e, c1] at b1
      cases b1
      exact Prod.ext (b2.symm.trans c2) e
  · obtain ⟨n, hn, rfl⟩ := hX.fl b B h1 h2
    obtain ⟨C, c1, c2, -⟩ := hX.ent n hn
    rw [h1] at c1
    cases c1
    rw [c2]
    exact (hX.elem hn).2
  · obtain ⟨n, hn, rfl⟩ := List.mem_map.1 (hX.elemOnly a (by rw [h1]; nofun))
    obtain ⟨C, c1, c2, -⟩ := hX.ent n hn
    obtain ⟨-, e', e1, e2⟩ := hX.elem hn
    rw [h1] at e1
    cases e1
    exact ⟨C, e2 ▸ c1, c2⟩
  · refine nodes_ok hX.fre (P := fun b => s.hd b ≠ none) (fun x hx => ?_) (fun b hb => hX.headOnly b hb) hX.headInj
    obtain ⟨f, f1, -⟩ := hX.heads x hx
    rw [f1]
    nofun

/-- C76. The statistics count the descriptors and the descriptors that are on a list of free blocks, each once. -/
theorem C76_stats {cfg : Cfg} {u : User} {s : St} {held : List Nat} (h : Reach cfg u s held) :
    ∃ L M : List Addr, L.Nodup ∧ (∀ b, b ∈ L ↔ s.blk b ≠ none) ∧ M.Nodup ∧ (∀ b, b ∈ M ↔ ∃ B, s.blk b = some B ∧ B.fl ≠ 0) ∧
      ∃ n, ∀ fuel, n ≤ fuel → stats fuel s = some ((L.length, M.length), s) := by
  obtain ⟨⟨A, E, hI⟩, -, -⟩ := reach_good h
  obtain ⟨F, hX⟩ := hI.lists
  have hp := (RavlMem.inv_view hI.all).2.1
  refine ⟨A.map (·.2.2), E.map (·.blk), ?_, fun b => ⟨fun hb => ?_, fun hb => ?_⟩, ?_, fun b => ⟨fun hb => ?_, ?_⟩, ?_⟩
  · rw [List.Nodup, List.pairwise_map]
    refine List.Pairwise.imp_of_mem ?_ hp
    intro x y hx hy hlt e
    obtain ⟨-, B, b1, b2⟩ := hI.desc x.2 (List.mem_map_of_mem hx)
    obtain ⟨-, C, c1, c2⟩ := hI.desc y.2 (List.mem_map_of_mem hy)
    rw [e, c1] at b1
    cases b1
    have hlt : x.2.1 < y.2.1 := hlt
    omega
  · obtain ⟨x, hx, rfl⟩ := List.mem_map.1 hb
    obtain ⟨-, B, b1, -⟩ := hI.desc x.2 (List.mem_map_of_mem hx)
    rw [b1]
    nofun
  · obtain ⟨d, hd⟩ := hI.only b hb
    obtain ⟨x, hx, e⟩ := List.mem_map.1 hd
    exact List.mem_map.2 ⟨x, hx, by rw [e]⟩
  · have := hX.nodup
    rw [List.Nodup, List.pairwise_map] at this ⊢
    refine List.Pairwise.imp_of_mem ?_ this
    intro x y hx hy hne e
    obtain ⟨B, b1, b2, -⟩ := hX.ent x hx
    obtain ⟨C, c1, c2, -⟩ := hX.ent y hy
    rw [e, c1] at b1
    cases b1
    exact hne (b2.symm.trans c2)
  · obtain ⟨x, hx, rfl⟩ := List.mem_map.1 hb
    obtain ⟨B, b1, b2, -⟩ := hX.ent x hx
    exact ⟨B, b1, fun e => (hX.elem hx).1 (b2 ▸ e)⟩
  · rintro ⟨B, b1, b2⟩
    obtain ⟨x, hx, rfl⟩ := hX.fl b B b1 b2
    exact List.mem_map_of_mem hx
  · rw [List.length_map, List.length_map]
    exact stats_ok hI hX

/-- C76. Destroying the allocator is defined after any history. It frees every descriptor, list element and tree node; what is left are
heads of empty lists, and none when the base allocator never refused anything. With a callback for freeing, each block is given to it once, with
its size, in the order of the addresses. Missing: that no head is left (`C76_leak_violated`). -/
theorem C76_delete_partial {cfg : Cfg} {u : User} {s : St} {held : List Nat} (h : Reach cfg u s held) :
    ∃ calls s', Destroys cfg s calls s' ∧ (∀ a, s'.blk a = none) ∧ (∀ a, s'.elm a = none) ∧ (∀ t a, (s'.tree t).h a = none) ∧
      (∀ a, s'.hd a ≠ none → s.hd a = some 0) ∧ (s.refused = false → ∀ a, s'.hd a = none) ∧ (cfg.hasFree = false → calls = []) ∧
      (cfg.hasFree = true → (calls.map (·.1)).Pairwise (· < ·) ∧ ∀ p, p ∈ calls ↔ ∃ b B, s.blk b = some B ∧ p = (B.data, B.size)) := by
  obtain ⟨⟨A, E, hI⟩, -, -⟩ := reach_good h
  obtain ⟨calls, s', g1, g2, g3, g4, g5, g6, g7⟩ := delete_ok cfg hI
  refine ⟨calls, s', g1, g2, g3, g4, fun a ha => (g5 a ha).2, fun hr a => ?_, g6, g7⟩
  exact Classical.byContradiction fun ha => hI.heads hr a (g5 a ha).2

end Verif.CoarseMem
