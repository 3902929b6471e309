import Verif.IpcMem.Calls
/-!
# The cache of opened IPC handles, pointer by pointer: C75
-/
namespace Verif.IpcMem

/-- C75. After any history of legal calls, with any answers of the base allocator and any hash function, every legal call has
defined behaviour (no freed or unallocated block is read or written, no bucket number is outside its array, no assertion fails, no loop
runs forever) and returns what the users can tell from the history: the entry for the key, the callbacks of the entry
that is evicted or of the entries of the cache that is destroyed. The one exception: a get that adds to a table can end the process
when the base allocator has no memory. Missing: that the get reports the lack of memory instead, and that `utils_mutex_init` may fail. -/
theorem C75_defined_partial {hash : Key → Nat} {s : St} {W : World} (h : Reach hash s W) {op : Op} (hl : Legal W op) {a : Answers}
    (ha : a.mutex = true) :
    (∃ out s', Runs hash s op a out s' ∧ Answered W op out) ∨
    (Exits hash s op a ∧ (∃ c key hid, op = .get c key hid) ∧ ¬ Enough 4 s a) := by
  obtain ⟨own, hI⟩ := reach_inv h
  rcases step_ok hI hl ha (fuel := W.lru.length + 2) (by omega) with ⟨e1, e2, e3⟩ | ⟨out, s', own', e1, e2, e3, -⟩
  · exact .inr ⟨⟨W.lru.length + 2, fun fuel hf => by rw [step_more hf (by rw [e1]; nofun), e1]⟩, e2, e3⟩
  · exact .inl ⟨out, s', ⟨W.lru.length + 2, fun fuel hf => by rw [step_more hf (by rw [e1]; nofun), e1]⟩, e2⟩

/-- C75. When the base allocator answers four requests, every legal call returns success. -/
theorem C75_enough {hash : Key → Nat} {s : St} {W : World} (h : Reach hash s W) {op : Op} (hl : Legal W op) {a : Answers}
    (ha : a.mutex = true) (hR : Enough 4 s a) :
    ∃ out s', Runs hash s op a out s' ∧ Answered W op out ∧ out.res = .success := by
  obtain ⟨own, hI⟩ := reach_inv h
  rcases step_ok hI hl ha (fuel := W.lru.length + 2) (by omega) with ⟨-, -, e3⟩ | ⟨out, s', own', e1, e2, e3, e4⟩
  · exact absurd hR e3
  · exact ⟨out, s', ⟨W.lru.length + 2, fun fuel hf => by rw [step_more hf (by rw [e1]; nofun), e1]⟩, e2, e4 hR⟩

/-- C75. After any history the blocks in use are these and no others: one for each entry, one for each cache, and at most one table
and one bucket array for each provider that has an entry. -/
theorem C75_blocks {hash : Key → Nat} {s : St} {W : World} (h : Reach hash s W) :
    (∀ a, s.live a = true ↔ ∃ e ∈ W.lru, e.id = a) ∧ (∀ c, s.caches c = none ↔ W.prov c = none) ∧
    (∃ f : Addr → Nat, (∀ T, s.tabs T ≠ none → ∃ e ∈ W.lru, e.key.prov = f T) ∧
      ∀ T T', s.tabs T ≠ none → s.tabs T' ≠ none → f T = f T' → T = T') ∧
    ∃ g : Addr → Addr, (∀ A, s.arrs A ≠ none → s.tabs (g A) ≠ none) ∧
      ∀ A A', s.arrs A ≠ none → s.arrs A' ≠ none → g A = g A' → A = A' := by
  classical
  obtain ⟨own, hI⟩ := reach_inv h
  have hT := hI.tables
  have hf : ∀ T, ∃ e : Ipc.CEnt, s.tabs T ≠ none → e ∈ W.lru ∧ ∃ c, W.prov c = some e.key.prov ∧ e.id ∈ own c ∧ s.link .tbl e.id = T := by
    intro T
    cases ht : s.tabs T with
    | none => exact ⟨⟨0, ⟨0, 0, 0⟩, 0, 0, 0, 0⟩, fun h' => absurd rfl h'⟩
    | some t =>
      obtain ⟨c, a, ha, hl⟩ := hT.tabOnly T t ht
      have he := hI.mem (hI.owned c a ha)
      exact ⟨entAt s a, fun _ => ⟨he, c, hI.prov_of_own he ha, ha, hl⟩⟩
  choose f hf using hf
  have hg : ∀ A, ∃ T, s.arrs A ≠ none → ∃ t, s.tabs T = some t ∧ t.buckets = A := by
    intro A
    cases hr : s.arrs A with
    | none => exact ⟨0, fun h' => absurd rfl h'⟩
    | some r =>
      obtain ⟨T, t, h1, h2⟩ := hT.arrOnly A r hr
      exact ⟨T, fun _ => ⟨t, h1, h2⟩⟩
  choose g hg using hg
  refine ⟨fun a => ?_, hI.caches, ⟨fun T => (f T).key.prov, fun T hT' => ⟨f T, (hf T hT').1, rfl⟩, fun T T' h1 h2 h3 => ?_⟩,
    g, fun A hA => ?_, fun A A' h1 h2 h3 => ?_⟩
  · rw [hI.live a]
    simp [ids]
  · obtain ⟨-, c, a1, a2, a3⟩ := hf T h1
    obtain ⟨-, c', b1, b2, b3⟩ := hf T' h2
    dsimp only at h3
    rw [← h3] at b1
    have hcc := hI.inj c c' _ a1 b1
    rw [hcc] at a2
    obtain ⟨T0, t, r, B, hok⟩ := hT.tab c' (List.ne_nil_of_mem a2)
    rw [← a3, ← b3, hok.tbl _ a2, hok.tbl _ b2]
  · obtain ⟨t, h1, -⟩ := hg A hA
    rw [h1]
    nofun
  · obtain ⟨t, a1, a2⟩ := hg A h1
    obtain ⟨t', b1, b2⟩ := hg A' h2
    rw [← h3, a1] at b1
    cases b1
    rw [← a2, ← b2]

/-- C75. When every cache has been destroyed, no block of an entry, a table, a bucket array or a cache is left. -/
theorem C75_clean {hash : Key → Nat} {s : St} {W : World} (h : Reach hash s W) (hc : ∀ c, W.prov c = none) (a : Addr) :
    fresh s a = true := by
  obtain ⟨own, hI⟩ := reach_inv h
  have hlru : W.lru = [] := by
    cases hW : W.lru with
    | nil => rfl
    | cons e k =>
      obtain ⟨c, -, h2⟩ := hI.owner e (by rw [hW]; simp)
      rw [hc c] at h2
      cases h2
  obtain ⟨h1, h2, ⟨f, h3, -⟩, g, h4, -⟩ := C75_blocks h
  have hT : ∀ T, s.tabs T = none := fun T => Classical.byContradiction fun h' => by
    obtain ⟨e, he, -⟩ := h3 T h'
    rw [hlru] at he
    cases he
  rw [fresh_iff]
  refine ⟨?_, hT a, Classical.byContradiction fun h' => h4 a h' (hT _), (h2 a).2 (hc a)⟩
  cases hl : s.live a with
  | false => rfl
  | true =>
    obtain ⟨e, he, -⟩ := (h1 a).1 hl
    rw [hlru] at he
    cases he

end Verif.IpcMem
