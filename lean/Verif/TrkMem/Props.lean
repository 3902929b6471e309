import Verif.TrkMem.Sim2
import Verif.TrkMem.Ipc
/-!
# C82: the tracker uses and frees its own memory correctly

Theorems, each with an example. What is missing in the ones called `_partial` is shown by the `_violated` ones: replacing the
value of a key asks for memory, and the answer is not looked at; and a merge of regions with children takes them for entries
of the next level.
-/
namespace Verif.TrkMem
open Tracker (Res word UpAlloc)

/-! ## Calls of the tracking providers -/

theorem run_inv {s : St} (h : Inv s []) {c : Call} (hc : c.Fair s) : ∃ s', c.run s = some s' ∧ Inv s' [] := by
  cases c with
  | alloc pool size up g node =>
    obtain ⟨s', r, h1, h2, _⟩ := alloc_sim h pool size up (g := g) hc node
    exact ⟨s', by simp [Call.run, h1], h2⟩
  | free pool ptr size up g node =>
    obtain ⟨s', r, _, h1, h2, _⟩ := free_sim h pool ptr size up (g := g) hc node
    exact ⟨s', by simp [Call.run, h1], h2⟩
  | split pool ptr total first up v =>
    obtain ⟨s', r, h1, h2, _⟩ := split_sim h pool ptr total first up v hc.1 hc.2.1 hc.2.2.1 hc.2.2.2
    exact ⟨s', by simp [Call.run, h1], h2⟩
  | merge pool lo hi total up v =>
    obtain ⟨s', r, h1, h2, _⟩ := merge_sim h pool lo hi total up v hc.1 hc.2.1 hc.2.2.1 hc.2.2.2
    exact ⟨s', by simp [Call.run, h1], h2⟩
  | look ptr => exact ⟨s, by simp [Call.run, getAllocInfo_sim h ptr], h⟩

theorem Reach.inv {s : St} (h : Reach s) : Inv s [] := by
  induction h with
  | init => exact Inv.empty
  | step _ hf he ih =>
    obtain ⟨s', h1, h2⟩ := run_inv ih hf
    rw [he] at h1
    cases h1
    exact h2

/-- After any calls, with any arguments and any refusals, the next call touches only entries that are allocated, frees only such,
uses only maps that exist, and leaves each region with an entry of its own, and no other block. -/
theorem C82_safe_partial {s : St} (h : Reach s) {c : Call} (hc : c.Fair s) : ∃ s', c.run s = some s' ∧ Exact s' := by
  obtain ⟨s', h1, h2⟩ := run_inv h.inv hc
  exact ⟨s', h1, h2.exact⟩

/-- After any calls the allocated blocks are exactly the entries of the maps. -/
theorem C82_exact_partial {s : St} (h : Reach s) : Exact s := h.inv.exact

/-- When the maps are empty no block is left. -/
theorem C82_empty_partial {s : St} (h : Reach s) (he : ∀ l, s.lv l = []) (a : Addr) : s.used a = false := by
  cases hu : s.used a with
  | false => rfl
  | true =>
    obtain ⟨l, k, _, h1⟩ := h.inv.exact.reached a hu
    rw [he] at h1
    cases h1

/-- A lookup reads the entries and finds what the tracker of regions finds (C14 says what this is). -/
theorem C82_lookup_partial {s : St} (h : Reach s) (ptr : Nat) :
    getAllocInfo s ptr = some (Tracker.getAllocInfo (view s) ptr) := getAllocInfo_sim h.inv ptr

/-- An allocation does to the regions what it does in the tracker of regions (C14, C15), with the memory it gets. -/
theorem C82_alloc_partial {s : St} (h : Reach s) (pool size : Nat) (up : UpAlloc) {g : Give} (hg : Honest g) (node : Bool) :
    ∃ s' r, trackingAlloc s pool size up g node = some (s', r) ∧
      Tracker.trackingAlloc (view s) pool size up ((g s.used).isSome && node) = (view s', r) := by
  obtain ⟨s', r, h1, _, h2⟩ := alloc_sim h.inv pool size up hg node
  exact ⟨s', r, h1, h2⟩

/-- So does a free (C16). -/
theorem C82_free_partial {s : St} (h : Reach s) (pool ptr size : Nat) (up : Option Nat) {g : Give} (hg : Honest g) (node : Bool) :
    ∃ s' r host, trackingFree s pool ptr size up g node = some (s', r) ∧
      Tracker.trackingFree (view s) pool ptr size up host = (view s', r) ∧
      ((∀ u, (g u).isSome = true) → node = true → host = true) := by
  obtain ⟨s', r, host, h1, _, h2⟩ := free_sim h.inv pool ptr size up hg node
  exact ⟨s', r, host, h1, h2⟩

/-- So does a split (C16), if the radix tree gets the memory to replace a value; or the mutex cannot be locked, and nothing is
changed. -/
theorem C82_split_partial {s : St} (h : Reach s) (pool ptr total first : Nat) (up : Option Nat) (v : Ans) (hg : Honest v.give)
    (hg2 : Honest v.give2) (hl : v.leaf = true) (hl3 : v.leaf3 = true) :
    ∃ s' r, trackingSplit s pool ptr total first up v = some (s', r) ∧
      ((v.lock = false ∧ view s' = view s ∧ r.2 = false ∧ r.1 ≠ .success) ∨
        ∃ host1 host2, Tracker.trackingSplit (view s) pool ptr total first up host1 host2 = (view s', r) ∧
          ((∀ u, (v.give u).isSome = true) → host1 = true) ∧
          ((∀ u, (v.give2 u).isSome = true) → v.node2 = true → host2 = true)) := by
  obtain ⟨s', r, h1, _, h2⟩ := split_sim h.inv pool ptr total first up v hg hg2 hl hl3
  exact ⟨s', r, h1, h2⟩

/-- So does a merge of regions without children (C16). -/
theorem C82_merge_partial {s : St} (h : Reach s) (pool lo hi total : Nat) (up : Option Nat) (v : Ans) (hg : Honest v.give)
    (hl : v.leaf = true) (hlo : Childless s lo) (hhi : Childless s hi) :
    ∃ s' r, trackingMerge s pool lo hi total up v = some (s', r) ∧
      ((v.lock = false ∧ view s' = view s ∧ r.2 = false ∧ r.1 ≠ .success) ∨
        ∃ host, Tracker.trackingMerge (view s) pool lo hi total up host = (view s', r) ∧
          ((∀ u, (v.give u).isSome = true) → host = true)) := by
  obtain ⟨s', r, h1, _, h2⟩ := merge_sim h.inv pool lo hi total up v hg hl hlo hhi
  exact ⟨s', r, h1, h2⟩

/-! ## Regions opened from other processes -/

/-- Registering and removing an opened region are always well defined; after them the blocks are exactly the entries of
the opened regions, and a region is found again with what was registered. -/
theorem C82_ipc {s : Ipc} {l : List Opened} (h : IpcReach s l) :
    (∀ c : IpcCall, c.Fair → ∃ s', c.run s = some s') ∧
    (∀ a, s.used a = true ↔ ∃ o ∈ l, (o.ptr, a) ∈ s.map) ∧
    (∀ o ∈ l, closeIpc s o.ptr = some (some o.cache)) ∧
    (∀ ptr, (∀ o ∈ l, o.ptr ≠ ptr) → closeIpc s ptr = some none ∧ ∀ s' r, removeIpc s ptr = some (s', r) → r = .unknown) ∧
    (∀ o ∈ l, ∀ s' r, removeIpc s o.ptr = some (s', r) → r = .success) := by
  have hi := h.inv
  have hin : ∀ o ∈ l, ∃ a, (o.ptr, a) ∈ s.map ∧ openedOf s (o.ptr, a) = o := by
    intro o ho
    rw [hi.same] at ho
    obtain ⟨e, he, h1⟩ := List.mem_map.1 ho
    exact ⟨e.2, by rw [← h1]; exact he, by rw [← h1]; rfl⟩
  have hgo : ∀ (k : Nat) (a : Addr), (k, a) ∈ s.map → openedOf s (k, a) ∈ l := by
    intro k a h1
    rw [hi.same]
    exact List.mem_map.2 ⟨_, h1, rfl⟩
  refine ⟨?_, ?_, ?_, ?_, ?_⟩
  · intro c hc
    cases c with
    | add ptr size provider cache g node =>
      obtain ⟨s', r, h1, _⟩ := addIpc_spec hi ptr size provider cache (g := g) hc node
      exact ⟨s', by simp [IpcCall.run, h1]⟩
    | remove ptr =>
      obtain ⟨s', r, h1, _⟩ := removeIpc_spec hi ptr
      exact ⟨s', by simp [IpcCall.run, h1]⟩
    | info ptr =>
      refine ⟨s, ?_⟩
      unfold IpcCall.run
      dsimp only
      unfold getIpcInfo
      split
      · rfl
      · have := findLe_spec (l := s.map) (x := ptr)
        split
        · rfl
        · rename_i k a hf
          rw [hf] at this
          rw [if_pos (hi.alive k a this.1)]
          split <;> rfl
    | close ptr =>
      refine ⟨s, ?_⟩
      unfold IpcCall.run
      dsimp only
      unfold closeIpc
      split
      · rfl
      · rename_i a ha
        rw [if_pos (hi.alive _ a (get_some ha))]
        rfl
  · intro a
    constructor
    · intro h1
      obtain ⟨k, h2⟩ := hi.reached a h1
      exact ⟨_, hgo k a h2, h2⟩
    · rintro ⟨o, _, h1⟩
      exact hi.alive _ a h1
  · intro o ho
    obtain ⟨a, h1, h2⟩ := hin o ho
    unfold closeIpc
    cases hx : get s.map o.ptr with
    | none => exact absurd h1 (get_none hx a)
    | some b =>
      have h3 := get_some hx
      have : b = a := hi.once _ _ _ h3 h1
      subst this
      dsimp only
      rw [if_pos (hi.alive _ b h1)]
      have : (s.heap b).cache = o.cache := by rw [← h2]; rfl
      rw [this]
  · intro ptr hp
    have hno : ∀ a, (ptr, a) ∉ s.map := fun a h1 => hp _ (hgo ptr a h1) rfl
    constructor
    · unfold closeIpc
      cases hx : get s.map ptr with
      | none => rfl
      | some b => exact absurd (get_some hx) (hno b)
    · intro s' r h1
      obtain ⟨s2, r2, h2, _, h3, h4⟩ := removeIpc_spec hi ptr
      rw [h1] at h2
      cases h2
      refine h4.resolve_left fun h5 => ?_
      obtain ⟨o, h6, h7⟩ := h3.1 h5
      exact hp o h6 h7
  · intro o ho s' r h1
    obtain ⟨s2, r2, h2, _, h3, _⟩ := removeIpc_spec hi o.ptr
    rw [h1] at h2
    cases h2
    exact h3.2 ⟨o, ho, rfl⟩

/-- If the opened regions do not overlap, an address in one of them gives its base, size and provider, and any other address
is refused. -/
theorem C82_ipcInfo {s : Ipc} {l : List Opened} (h : IpcReach s l) (hb : ∀ o ∈ l, o.ptr + o.size < 2 ^ 64)
    (hd : ∀ o ∈ l, ∀ o' ∈ l, o = o' ∨ o.ptr + o.size ≤ o'.ptr ∨ o'.ptr + o'.size ≤ o.ptr) {x : Nat} (hx : x ≠ 0) :
    (∀ o ∈ l, o.ptr ≤ x → x < o.ptr + o.size → getIpcInfo s x = some (some (o.ptr, o.size, o.provider))) ∧
    ((∀ o ∈ l, ¬(o.ptr ≤ x ∧ x < o.ptr + o.size)) → getIpcInfo s x = some none) := by
  have hi := h.inv
  have hgo : ∀ (k : Nat) (a : Addr), (k, a) ∈ s.map → openedOf s (k, a) ∈ l := by
    intro k a h1
    rw [hi.same]
    exact List.mem_map.2 ⟨_, h1, rfl⟩
  have spec := findLe_spec (l := s.map) (x := x)
  have hw : ∀ (k : Nat) (a : Addr), (k, a) ∈ s.map → word (k + (s.heap a).size) = k + (s.heap a).size :=
    fun k a h1 => Nat.mod_eq_of_lt (hb _ (hgo k a h1))
  unfold getIpcInfo
  rw [if_neg hx]
  cases hf : findLe s.map x with
  | none =>
    rw [hf] at spec
    refine ⟨fun o ho h1 _ => ?_, fun _ => rfl⟩
    rw [hi.same] at ho
    obtain ⟨e, he, h2⟩ := List.mem_map.1 ho
    have h3 := spec e he
    have h4 : o.ptr = e.1 := by rw [← h2]; rfl
    omega
  | some e =>
    obtain ⟨k, a⟩ := e
    rw [hf] at spec
    obtain ⟨h1, h2, h3⟩ := spec
    dsimp only at h2 ⊢
    rw [if_pos (hi.alive k a h1), hw k a h1]
    constructor
    · intro o ho h4 h5
      have ho' := ho
      rw [hi.same] at ho'
      obtain ⟨e, he, h6⟩ := List.mem_map.1 ho'
      have h7 : o.ptr = e.1 := by rw [← h6]; rfl
      have h8 := h3 e he (by omega)
      dsimp only at h8
      have heq : o = openedOf s (k, a) := by
        rcases hd o ho _ (hgo k a h1) with h9 | h9 | h9
        · exact h9
        · have : (openedOf s (k, a)).ptr = k := rfl
          omega
        · have h10 : (openedOf s (k, a)).ptr = k := rfl
          have : k = o.ptr ∨ k < o.ptr ∨ o.ptr < k := by omega
          by_cases hke : k = o.ptr
          · have h11 : a = e.2 := hi.once k a e.2 h1 (by rw [hke, h7]; exact he)
            rw [← h6]
            unfold openedOf
            rw [h11, hke, h7]
          · omega
      have h9 : o.ptr = k := by rw [heq]; rfl
      have h10 : o.size = (s.heap a).size := by rw [heq]; rfl
      have h11 : o.provider = (s.heap a).provider := by rw [heq]; rfl
      rw [if_neg (by omega), h9, h10, h11]
    · intro hno
      have := hno _ (hgo k a h1)
      have h4 : (openedOf s (k, a)).ptr = k := rfl
      have h5 : (openedOf s (k, a)).size = (s.heap a).size := rfl
      rw [if_pos (by omega)]

end Verif.TrkMem
