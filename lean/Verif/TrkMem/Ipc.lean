import Verif.TrkMem.Inv
/-! # Regions opened from other processes -/
namespace Verif.TrkMem
open Tracker (Res word)

def openedOf (s : Ipc) (e : Nat × Addr) : Opened := ⟨e.1, (s.heap e.2).size, (s.heap e.2).provider, (s.heap e.2).cache⟩

structure IpcInv (s : Ipc) (l : List Opened) : Prop where
  alive : ∀ (k : Nat) (a : Addr), (k, a) ∈ s.map → s.used a = true
  reached : ∀ a : Addr, s.used a = true → ∃ k, (k, a) ∈ s.map
  single : ∀ (k k' : Nat) (a : Addr), (k, a) ∈ s.map → (k', a) ∈ s.map → k = k'
  once : ∀ (k : Nat) (a a' : Addr), (k, a) ∈ s.map → (k, a') ∈ s.map → a = a'
  same : l = s.map.map (openedOf s)

theorem IpcInv.init : IpcInv .empty [] :=
  ⟨fun _ _ h => by simp [Ipc.empty] at h, fun _ h => by simp [Ipc.empty] at h, fun _ _ _ h => by simp [Ipc.empty] at h,
    fun _ _ _ h => by simp [Ipc.empty] at h, rfl⟩

/-- What `addIpc` does. -/
theorem addIpc_spec {s : Ipc} {l : List Opened} (h : IpcInv s l) (ptr size provider cache : Nat) {g : Give} (hg : Honest g)
    (node : Bool) :
    ∃ s' r, addIpc s ptr size provider cache g node = some (s', r) ∧
      IpcInv s' (if r = .success then ⟨ptr, size, provider, cache⟩ :: l else l) := by
  unfold addIpc
  cases hx : g s.used with
  | none => exact ⟨s, _, rfl, by rw [if_neg (by simp)]; exact h⟩
  | some x =>
    have hu := hg _ _ hx
    have hne : ∀ (k : Nat) (a : Addr), (k, a) ∈ s.map → a ≠ x := by
      intro k a h1 h2
      have := h.alive k a h1
      rw [h2, hu] at this
      cases this
    have hsame : ∀ (s' : Ipc), s'.map = s.map → s'.heap = upd s.heap x ⟨size, provider, cache⟩ →
        s.map.map (openedOf s') = s.map.map (openedOf s) := by
      intro s' _ h2
      apply List.map_congr_left
      intro e he
      unfold openedOf
      rw [h2, upd_ne _ _ (hne e.1 e.2 he)]
    dsimp only
    have back : ∀ r : Res, r ≠ .success → ∃ s' r', (Ipc.release { s with used := upd s.used x true, heap := upd s.heap x ⟨size, provider, cache⟩ } x).map
        (fun s2 => (s2, r)) = some (s', r') ∧ IpcInv s' (if r' = .success then ⟨ptr, size, provider, cache⟩ :: l else l) := by
      intro r hr
      refine ⟨{ s with used := upd (upd s.used x true) x false, heap := upd s.heap x ⟨size, provider, cache⟩ }, r, ?_, ?_⟩
      · unfold Ipc.release
        rw [if_pos (upd_eq _ _ _)]
        rfl
      · rw [if_neg hr]
        refine ⟨?_, ?_, h.single, h.once, ?_⟩
        · intro k a h1
          show upd (upd s.used x true) x false a = true
          rw [upd_ne _ _ (hne k a h1), upd_ne _ _ (hne k a h1)]
          exact h.alive k a h1
        · intro a h1
          have h2 : upd (upd s.used x true) x false a = true := h1
          by_cases ha : a = x
          · rw [ha, upd_eq] at h2
            cases h2
          · rw [upd_ne _ _ ha, upd_ne _ _ ha] at h2
            exact h.reached a h2
        · rw [h.same]
          exact (hsame { s with used := upd (upd s.used x true) x false, heap := upd s.heap x ⟨size, provider, cache⟩ } rfl rfl).symm
    cases node with
    | false => exact back _ (by simp)
    | true =>
      rw [if_neg (by simp)]
      by_cases hk : hasKey s.map ptr
      · rw [if_pos hk]
        exact back _ (by simp)
      · rw [if_neg hk]
        refine ⟨_, _, rfl, ?_⟩
        rw [if_pos rfl]
        have hk' : ∀ a, (ptr, a) ∉ s.map := hasKey_false (by simpa using hk)
        refine ⟨?_, ?_, ?_, ?_, ?_⟩
        · intro k a h1
          show upd s.used x true a = true
          by_cases ha : a = x
          · rw [ha, upd_eq]
          · rw [upd_ne _ _ ha]
            rcases List.mem_cons.1 h1 with h2 | h2
            · cases h2
              exact absurd rfl ha
            · exact h.alive k a h2
        · intro a h1
          have h2 : upd s.used x true a = true := h1
          by_cases ha : a = x
          · exact ⟨ptr, by simp [ha]⟩
          · rw [upd_ne _ _ ha] at h2
            obtain ⟨k, h3⟩ := h.reached a h2
            exact ⟨k, List.mem_cons_of_mem _ h3⟩
        · intro k k' a h1 h2
          rcases List.mem_cons.1 h1 with h3 | h3 <;> rcases List.mem_cons.1 h2 with h4 | h4
          · cases h3
            cases h4
            rfl
          · cases h3
            exact absurd rfl (hne _ _ h4)
          · cases h4
            exact absurd rfl (hne _ _ h3)
          · exact h.single k k' a h3 h4
        · intro k a a' h1 h2
          rcases List.mem_cons.1 h1 with h3 | h3 <;> rcases List.mem_cons.1 h2 with h4 | h4
          · cases h3
            cases h4
            rfl
          · cases h3
            exact absurd h4 (hk' _)
          · cases h4
            exact absurd h3 (hk' _)
          · exact h.once k a a' h3 h4
        · rw [h.same, List.map_cons]
          congr 1
          · simp [openedOf, upd_eq]
          · exact (hsame { s with used := upd s.used x true, heap := upd s.heap x ⟨size, provider, cache⟩ } rfl rfl).symm

theorem get_some {l : List (Nat × Addr)} {x : Nat} {a : Addr} (h : get l x = some a) : (x, a) ∈ l := by
  unfold get at h
  cases hf : l.find? fun e => e.1 == x with
  | none =>
    rw [hf] at h
    cases h
  | some e =>
    rw [hf] at h
    cases h
    have h1 := List.find?_some hf
    have h2 := List.mem_of_find?_eq_some hf
    have h3 : e.1 = x := by simpa using h1
    rw [← h3]
    exact h2

theorem get_none {l : List (Nat × Addr)} {x : Nat} (h : get l x = none) (a : Addr) : (x, a) ∉ l := by
  intro h1
  unfold get at h
  rw [Option.map_eq_none_iff, List.find?_eq_none] at h
  have := h _ h1
  simp at this

theorem filter_opened {s : Ipc} (ptr : Nat) :
    (s.map.map (openedOf s)).filter (fun o => o.ptr ≠ ptr) = (s.map.filter fun e => e.1 ≠ ptr).map (openedOf s) := by
  rw [List.filter_map]
  rfl

theorem removeIpc_spec {s : Ipc} {l : List Opened} (h : IpcInv s l) (ptr : Nat) :
    ∃ s' r, removeIpc s ptr = some (s', r) ∧ IpcInv s' (l.filter fun o => o.ptr ≠ ptr) ∧
      (r = .success ↔ ∃ o ∈ l, o.ptr = ptr) ∧ (r = .success ∨ r = .unknown) := by
  unfold removeIpc
  have hin : ∀ o ∈ l, ∃ a, (o.ptr, a) ∈ s.map := by
    intro o ho
    rw [h.same] at ho
    obtain ⟨e, he, h1⟩ := List.mem_map.1 ho
    exact ⟨e.2, by rw [← h1]; exact he⟩
  cases hx : get s.map ptr with
  | none =>
    refine ⟨s, _, rfl, ?_, ⟨(fun h1 => by cases h1), fun ⟨o, h1, h2⟩ => ?_⟩, .inr rfl⟩
    · have : (l.filter fun o => o.ptr ≠ ptr) = l := by
        rw [List.filter_eq_self]
        intro o ho
        obtain ⟨a, h1⟩ := hin o ho
        have : o.ptr ≠ ptr := fun h2 => get_none hx a (h2 ▸ h1)
        simpa using this
      rw [this]
      exact h
    · obtain ⟨a, h3⟩ := hin o h1
      exact absurd (h2 ▸ h3) (get_none hx a)
  | some a =>
    have hm := get_some hx
    have hu := h.alive ptr a hm
    dsimp only
    rw [if_pos hu]
    refine ⟨{ s with map := s.map.filter (fun e => e.1 ≠ ptr), used := upd s.used a false }, .success, ?_, ?_,
      ⟨fun _ => ⟨openedOf s (ptr, a), ?_, rfl⟩, fun _ => rfl⟩, .inl rfl⟩
    · unfold Ipc.release
      rw [if_pos hu]
      rfl
    · have sub : ∀ (k : Nat) (b : Addr), (k, b) ∈ (s.map.filter fun e => e.1 ≠ ptr) ↔ (k, b) ∈ s.map ∧ k ≠ ptr := by
        intro k b
        rw [List.mem_filter]
        simp
      refine ⟨?_, ?_, fun k k' b h1 h2 => h.single k k' b ((sub _ _).1 h1).1 ((sub _ _).1 h2).1,
        fun k b b' h1 h2 => h.once k b b' ((sub _ _).1 h1).1 ((sub _ _).1 h2).1, ?_⟩
      · intro k b h1
        obtain ⟨h2, h3⟩ := (sub k b).1 h1
        show upd s.used a false b = true
        have : b ≠ a := fun h4 => h3 (h.single k ptr a (h4 ▸ h2) hm)
        rw [upd_ne _ _ this]
        exact h.alive k b h2
      · intro b h1
        have h2 : upd s.used a false b = true := h1
        by_cases hb : b = a
        · rw [hb, upd_eq] at h2
          cases h2
        · rw [upd_ne _ _ hb] at h2
          obtain ⟨k, h3⟩ := h.reached b h2
          refine ⟨k, (sub k b).2 ⟨h3, fun h4 => hb (h.once ptr b a (h4 ▸ h3) hm)⟩⟩
      · rw [h.same, filter_opened]
        rfl
    · rw [h.same]
      exact List.mem_map.2 ⟨_, hm, rfl⟩

theorem IpcReach.inv {s : Ipc} {l : List Opened} (h : IpcReach s l) : IpcInv s l := by
  induction h with
  | init => exact IpcInv.init
  | added _ hg he ih =>
    obtain ⟨s', r, h1, h2⟩ := addIpc_spec ih _ _ _ _ hg _
    rw [he] at h1
    cases h1
    simpa using h2
  | refused _ hg hr he ih =>
    obtain ⟨s', r, h1, h2⟩ := addIpc_spec ih _ _ _ _ hg _
    rw [he] at h1
    cases h1
    rw [if_neg hr] at h2
    exact h2
  | removed _ he ih =>
    obtain ⟨s', r, h1, h2, _⟩ := removeIpc_spec ih _
    rw [he] at h1
    cases h1
    exact h2

theorem findLe_spec {l : List (Nat × Addr)} {x : Nat} :
    match findLe l x with
    | none => ∀ e ∈ l, x < e.1
    | some e => e ∈ l ∧ e.1 ≤ x ∧ ∀ f ∈ l, f.1 ≤ x → f.1 ≤ e.1 := by
  induction l with
  | nil => simp [findLe]
  | cons d l ih =>
    rw [findLe]
    cases hf : findLe l x with
    | none =>
      rw [hf] at ih
      dsimp only at ih ⊢
      by_cases h1 : d.1 ≤ x
      · rw [if_pos h1]
        refine ⟨by simp, h1, fun f h2 h3 => ?_⟩
        rcases List.mem_cons.1 h2 with h4 | h4
        · exact Nat.le_of_eq (congrArg Prod.fst h4)
        · have := ih f h4
          omega
      · rw [if_neg h1]
        intro e he
        rcases List.mem_cons.1 he with h4 | h4
        · rw [h4]
          omega
        · exact ih e h4
    | some e =>
      rw [hf] at ih
      dsimp only at ih ⊢
      obtain ⟨h2, h3, h4⟩ := ih
      by_cases h1 : d.1 ≤ x ∧ e.1 < d.1
      · rw [if_pos h1]
        refine ⟨by simp, h1.1, fun f h5 h6 => ?_⟩
        rcases List.mem_cons.1 h5 with h7 | h7
        · exact Nat.le_of_eq (congrArg Prod.fst h7)
        · have := h4 f h7 h6
          omega
      · rw [if_neg h1]
        refine ⟨List.mem_cons_of_mem _ h2, h3, fun f h5 h6 => ?_⟩
        rcases List.mem_cons.1 h5 with h7 | h7
        · rw [h7] at h6 ⊢
          omega
        · exact h4 f h7 h6

end Verif.TrkMem
