import Verif.Gpu.MsgSpec

/-! # The message buffer -/
namespace Verif.Gpu.Msg

structure Ok (buf s : Bytes) : Prop where
  len : buf.length = bufLen
  reads : Reads buf s
  last : buf.drop (bufLen - 1) = [0]

theorem Reads.strlen {buf s : Bytes} (h : Reads buf s) : strlen buf = some s.length := by
  obtain ⟨h1, rest, rfl⟩ := h
  unfold Msg.strlen
  rw [List.findIdx?_append]
  have : List.findIdx? (fun x => x == 0) s = none := by
    rw [List.findIdx?_eq_none_iff]
    intro x hx
    simpa using h1 x hx
  rw [this]
  simp [List.findIdx?_cons]

theorem Reads.unique {buf s t : Bytes} (h : Reads buf s) (h' : Reads buf t) : s = t := by
  have := h.strlen.symm.trans h'.strlen
  obtain ⟨_, r, h2⟩ := h
  obtain ⟨_, r', h4⟩ := h'
  rw [h2] at h4
  exact (List.append_inj h4 (Option.some.inj this)).1

theorem strncpy_ok {buf src : Bytes} (hl : buf.length = bufLen) (hlast : buf.drop (bufLen - 1) = [0])
    (hs : ∀ c ∈ src, c ≠ 0) : ∃ buf', strncpy buf src (bufLen - 1) = some buf' ∧ Ok buf' (src.take (bufLen - 1)) := by
  unfold strncpy
  rw [if_pos (by rw [hl]; exact Nat.sub_le _ _)]
  refine ⟨_, rfl, ?_, ?_, ?_⟩
  · rw [hlast]
    simp only [List.length_append, List.length_take, List.length_replicate, List.length_singleton]
    have : bufLen = 1024 := rfl
    omega
  · refine ⟨fun c hc => hs c (List.mem_of_mem_take hc), ?_⟩
    rw [hlast]
    cases hk : bufLen - 1 - src.length with
    | zero => exact ⟨[], by simp⟩
    | succ n => exact ⟨List.replicate n 0 ++ [0], by simp [List.replicate_succ]⟩
  · rw [hlast]
    rw [List.drop_append_of_le_length]
    · rw [List.drop_eq_nil_of_le]
      · rfl
      · simp only [List.length_append, List.length_take, List.length_replicate]
        omega
    · simp only [List.length_append, List.length_take, List.length_replicate]
      omega

theorem strncat_ok {buf s src : Bytes} (h : Ok buf s) (hs : ∀ c ∈ src, c ≠ 0) :
    ∃ buf', strncat buf src (bufLen - s.length - 1) = some buf' ∧ Ok buf' ((s ++ src).take (bufLen - 1)) := by
  obtain ⟨hlen, ⟨hz, rest, hb⟩, hlast⟩ := h
  have hsl : s.length + (rest.length + 1) = bufLen := by rw [← hlen, hb]; simp
  have htake : (s ++ src).take (bufLen - 1) = s ++ src.take (bufLen - s.length - 1) := by
    rw [List.take_append, List.take_of_length_le (by omega)]
    congr 2
    omega
  unfold strncat
  rw [Reads.strlen ⟨hz, rest, hb⟩]
  dsimp only
  have hle : (src.take (bufLen - s.length - 1)).length ≤ bufLen - s.length - 1 := by
    rw [List.length_take]
    omega
  generalize hx : src.take (bufLen - s.length - 1) = x at *
  rw [if_pos (by rw [hlen]; omega)]
  refine ⟨_, rfl, ?_, ?_, ?_⟩
  · simp only [List.length_append, List.length_take, List.length_drop, List.length_singleton, hlen]
    omega
  · rw [htake]
    refine ⟨?_, buf.drop (s.length + x.length + 1), ?_⟩
    · intro c hc
      rcases List.mem_append.1 hc with h | h
      · exact hz c h
      · rw [← hx] at h
        exact hs c (List.mem_of_mem_take h)
    · have : buf.take s.length = s := by rw [hb]; simp
      rw [this]
      simp
  · have : buf.take s.length = s := by rw [hb]; simp
    rw [this]
    by_cases hfull : s.length + x.length + 1 = bufLen
    · have h0 : buf.drop (s.length + x.length + 1) = [] := List.drop_eq_nil_of_le (by rw [hlen]; omega)
      rw [h0, List.append_nil]
      have h1 : bufLen - 1 = (s ++ x).length := by simp; omega
      rw [h1]
      simp
    · rw [List.drop_append, List.drop_eq_nil_of_le (by simp; omega), List.nil_append, List.drop_drop]
      have h1 : s.length + x.length + 1 + (bufLen - 1 - (s ++ x ++ [0]).length) = bufLen - 1 := by
        simp
        omega
      rw [h1, hlast]

/-- What is read from the buffer after a query. -/
theorem cuMessage_ok {buf : Bytes} {name text : Option Bytes} (hl : buf.length = bufLen)
    (hlast : buf.drop (bufLen - 1) = [0]) (hn : ∀ n, name = some n → ∀ c ∈ n, c ≠ 0)
    (ht : ∀ t, text = some t → ∀ c ∈ t, c ≠ 0) :
    ∃ buf', cuMessage buf name text = some buf' ∧
      Ok buf' ((name.getD (lit "cuGetErrorName() failed") ++ lit " - " ++
        text.getD (lit "cuGetErrorString() failed")).take (bufLen - 1)) := by
  have tt : ∀ a b : Bytes, (a.take (bufLen - 1) ++ b).take (bufLen - 1) = (a ++ b).take (bufLen - 1) := by
    intro a b
    rw [List.take_append, List.take_append, List.take_take, List.length_take]
    by_cases h : a.length ≤ bufLen - 1
    · rw [Nat.min_eq_right h, Nat.min_self]
    · rw [Nat.min_self]
      congr 2
      omega
  have hN : ∀ c ∈ name.getD (lit "cuGetErrorName() failed"), c ≠ 0 := by
    cases name with
    | none => decide +kernel
    | some n => exact hn n rfl
  have hT : ∀ c ∈ text.getD (lit "cuGetErrorString() failed"), c ≠ 0 := by
    cases text with
    | none => decide +kernel
    | some n => exact ht n rfl
  have e : cuMessage buf name text = (do
      let buf ← strncpy buf (name.getD (lit "cuGetErrorName() failed")) (bufLen - 1)
      let size ← strlen buf
      let buf ← strncat buf (lit " - ") (bufLen - size - 1)
      let size ← strlen buf
      strncat buf (text.getD (lit "cuGetErrorString() failed")) (bufLen - size - 1)) := by
    cases name <;> cases text <;> rfl
  obtain ⟨b1, h1, o1⟩ := strncpy_ok hl hlast hN
  obtain ⟨b2, h2, o2⟩ := strncat_ok o1 (src := lit " - ") (by decide +kernel)
  obtain ⟨b3, h3, o3⟩ := strncat_ok o2 hT
  refine ⟨b3, ?_, ?_⟩
  · rw [e, h1]
    simp only [Option.bind_eq_bind, Option.bind_some, o1.reads.strlen, h2, o2.reads.strlen, h3]
  · rw [tt, List.append_assoc, tt, ← List.append_assoc] at o3
    exact o3

theorem history_ok : ∀ {qs : List (Option Bytes × Option Bytes)},
    (∀ q ∈ qs, (∀ n, q.1 = some n → ∀ c ∈ n, c ≠ 0) ∧ ∀ t, q.2 = some t → ∀ c ∈ t, c ≠ 0) →
    ∃ buf, history qs = some buf ∧ buf.length = bufLen ∧ buf.drop (bufLen - 1) = [0]
  | [], _ => ⟨_, rfl, List.length_replicate, by rw [List.drop_replicate]; rfl⟩
  | q :: qs, h => by
    obtain ⟨buf, h1, h2, h3⟩ := history_ok (qs := qs) fun q hq => h q (List.mem_cons_of_mem _ hq)
    obtain ⟨hn, ht⟩ := h q (List.mem_cons_self)
    obtain ⟨buf', h4, h5⟩ := cuMessage_ok h2 h3 hn ht
    exact ⟨buf', by simp [history, h1, h4], h5.len, h5.last⟩

end Verif.Gpu.Msg
