import Verif.Native.Spec
/-! # Lemmas for C71 -/
namespace Verif.Native
open Gpu.Msg (Bytes lit)

theorem bindLoop_spec {log : Int → Int} (hlog : ∀ e, log e = e) :
    ∀ {l : List (Option Int)} {r r' : Rec}, bindLoop log r l = (r', .specific) →
      ∃ e, some e ∈ l ∧ e ≠ 38 ∧ e ≠ 0 ∧ r' = store r osBindFailed e := by
  intro l
  induction l with
  | nil => intro r r' h; cases h
  | cons b l ih =>
    intro r r' h
    cases b with
    | none =>
      obtain ⟨e, h1, h2⟩ := ih h
      exact ⟨e, List.mem_cons_of_mem _ h1, h2⟩
    | some e =>
      unfold bindLoop at h
      dsimp only at h
      rw [hlog] at h
      by_cases he : e ≠ ENOSYS ∧ e ≠ 0
      · rw [if_pos he] at h
        cases h
        exact ⟨e, List.mem_cons_self, he.1, he.2, rfl⟩
      · rw [if_neg he] at h
        obtain ⟨e', h1, h2, h3, h4⟩ := ih h
        exact ⟨e', List.mem_cons_of_mem _ h1, h2, h3, h4⟩

theorem bindLoop_quiet {log : Int → Int} {l : List (Option Int)} (h : ∀ b ∈ l, b = none) (r : Rec) :
    bindLoop log r l = (r, .success) := by
  induction l with
  | nil => rfl
  | cons b l ih =>
    rw [h b List.mem_cons_self]
    exact ih fun b hb => h b (List.mem_cons_of_mem _ hb)

/-- What a call that reports a provider specific error leaves in the record. -/
def Recorded (r : Rec) (op : Op) (r' : Rec) : Prop :=
  ∃ f e c, Because op f e ∧ Code op.kind f c ∧ e ≠ some 0 ∧ r' = store r c (e.getD 0)

theorem run_spec {op : Op} {log : Int → Int} (hp : Plain op log) {r r' : Rec}
    (h : op.run log r = (r', .specific)) : Recorded r op r' := by
  cases op with
  | osInit i l e =>
    simp only [Op.run, osInit] at h
    cases i with
    | false => cases h
    | true =>
      cases l with
      | true => cases e <;> cases h
      | false =>
        cases h
        exact ⟨.topology, none, 1007, .init, .os7, (fun e => by cases e), rfl⟩
  | osAlloc a =>
    have hb := hp.bitmap rfl
    simp only [Op.run, osAlloc] at h
    by_cases h1 : a.wrongAlign = true
    · rw [if_pos h1] at h; cases h
    rw [if_neg h1] at h
    by_cases h2 : a.mmap = false
    · rw [if_pos h2] at h
      cases h
      exact ⟨.alloc, none, 1001, .mmap h2, .os1, (fun e => by cases e), rfl⟩
    rw [if_neg h2] at h
    by_cases h3 : a.misaligned = true
    · rw [if_pos h3] at h
      cases h
      exact ⟨.align, none, 1002, .misaligned h3, .os2, (fun e => by cases e), rfl⟩
    rw [if_neg h3] at h
    by_cases h4 : a.numa = false
    · rw [if_pos h4] at h; cases h
    rw [if_neg h4] at h
    by_cases h5 : a.tooBig = true
    · rw [if_pos h5] at h; cases h
    rw [if_neg h5, if_neg (by rw [hb]; exact Bool.noConfusion)] at h
    obtain ⟨e, h6, h7, h8, h9⟩ := bindLoop_spec hp.log h
    exact ⟨.bind, some e, 1003, .bind h6 h7, .os3, (fun x => h8 (by injection x)), h9⟩
  | osFree n e =>
    simp only [Op.run, osFree] at h
    cases n with
    | true => cases h
    | false =>
      cases e with
      | none => cases h
      | some e =>
        cases h
        exact ⟨.free, some e, 1004, .free, .os4, (fun x => hp.free rfl (by injection x)), rfl⟩
  | purgeLazy k e =>
    cases k with
    | os =>
      cases e with
      | none => cases h
      | some e =>
        cases h
        exact ⟨.purgeLazy, some e, 1005, .lazy, .os5, (fun x => hp.lazy rfl (by injection x)), rfl⟩
    | file => cases h
    | devdax => cases h
    | fixed => cases h
  | purgeForce k e =>
    cases e with
    | none => cases h
    | some e =>
      have he : some e ≠ some 0 := fun x => hp.force rfl (by injection x)
      cases k with
      | os => cases h; exact ⟨.purgeForce, some e, 1006, .force, .os6, he, rfl⟩
      | file => cases h; exact ⟨.purgeForce, some e, 3003, .force, .file3, he, rfl⟩
      | devdax => cases h; exact ⟨.purgeForce, some e, 2004, .force, .dax4, he, rfl⟩
      | fixed => cases h; exact ⟨.purgeForce, some e, 4001, .force, .fix1, he, rfl⟩
  | osOpen a =>
    simp only [Op.run, osOpen] at h
    by_cases h1 : a.enabled = false
    · rw [if_pos h1] at h; cases h
    rw [if_neg h1] at h
    cases h2 : a.fd with
    | some e => rw [h2] at h; cases h
    | none =>
      rw [h2] at h
      cases h3 : a.mmap with
      | none => rw [h3] at h; cases h
      | some e =>
        rw [h3] at h
        cases h
        exact ⟨.alloc, some e, 1001, .osOpen h3, .os1, (fun x => hp.osOpen rfl h3 (by injection x)), rfl⟩
  | fileOpen a =>
    simp only [Op.run, fileOpen] at h
    by_cases h1 : a.enabled = false
    · rw [if_pos h1] at h; cases h
    rw [if_neg h1] at h
    cases h2 : a.fd with
    | some e => rw [h2] at h; cases h
    | none =>
      rw [h2] at h
      cases h3 : a.mmap with
      | none => rw [h3] at h; cases h
      | some e =>
        obtain ⟨h4, h5⟩ := hp.fileOpen rfl h3
        rw [h3, h5] at h
        cases h
        exact ⟨.alloc, some e, 3001, .fileOpen h3, .file1, (fun x => h4 (by injection x)), rfl⟩
  | devdaxOpen a =>
    simp only [Op.run, devdaxOpen] at h
    cases h2 : a.fd with
    | some e => rw [h2] at h; cases h
    | none =>
      rw [h2] at h
      cases h3 : a.mmap with
      | none =>
        rw [h3] at h
        dsimp only at h
        split at h <;> cases h
      | some e =>
        obtain ⟨h4, h5⟩ := hp.devdaxOpen rfl h3
        rw [h3, h5] at h
        dsimp only [Option.getD] at h
        rw [hp.log] at h
        cases h
        exact ⟨.alloc, some e, 2001, .devdaxOpen h3, .dax1, (fun x => h4 (by injection x)), rfl⟩
  | ipcClose k en z e =>
    simp only [Op.run, ipcClose] at h
    by_cases h5 : k = .fixed
    · rw [if_pos h5] at h; cases h
    rw [if_neg h5] at h
    by_cases h1 : k ≠ .devdax ∧ en = false
    · rw [if_pos h1] at h; cases h
    rw [if_neg h1] at h
    cases e with
    | none => cases h
    | some e =>
      have h4 := hp.close rfl
      have he : some e ≠ some 0 := fun x => h4 (by injection x)
      cases z with
      | true => cases h
      | false =>
        cases k with
        | os => cases h; exact ⟨.free, some e, 1004, .close, .os4, he, rfl⟩
        | file => cases h; exact ⟨.free, some e, 3002, .close, .file2, he, rfl⟩
        | devdax => cases h; exact ⟨.free, some e, 2003, .close, .dax3, he, rfl⟩
        | fixed => exact absurd rfl h5
  | fileAlloc a =>
    cases a with
    | served e => cases e <;> cases h
    | wrongAlign => cases h
    | refused e => cases h
    | mmap => cases h; exact ⟨.alloc, none, 3001, .file, .file1, (fun e => by cases e), rfl⟩
    | late e => cases h
    | done => cases h
  | quiet k e => cases e <;> cases h

/-- A harmless call leaves the record as it is. -/
theorem run_harmless {op : Op} {log : Int → Int} (h : Harmless op log) (r : Rec) :
    (op.run log r).1 = r := by
  obtain ⟨h1, h2, h3⟩ := h
  cases op with
  | osInit i l e => cases i <;> cases l <;> first | rfl | exact absurd rfl h1
  | osAlloc a =>
    simp only [Op.run, osAlloc] at h1 ⊢
    rw [bindLoop_quiet (h3 a rfl)] at h1 ⊢
    repeat' split
    all_goals first | rfl | (exfalso; simp_all)
  | osFree n e => cases n <;> cases e <;> first | rfl | exact absurd rfl h1
  | purgeLazy k e => cases k <;> cases e <;> first | rfl | exact absurd rfl h1
  | purgeForce k e => cases e <;> first | rfl | exact absurd rfl h1
  | osOpen a =>
    simp only [Op.run, osOpen] at h1 ⊢
    repeat' split
    all_goals first | rfl | (exfalso; simp_all)
  | fileOpen a =>
    simp only [Op.run, fileOpen] at h1 ⊢
    repeat' split
    all_goals first | rfl | (exfalso; simp_all)
  | devdaxOpen a =>
    simp only [Op.run, devdaxOpen] at h1 ⊢
    repeat' split
    all_goals first | rfl | (exfalso; simp_all)
  | ipcClose k en z e =>
    simp only [Op.run, ipcClose] at h1 ⊢
    by_cases hf : k = .fixed
    · rw [if_pos hf]
    rw [if_neg hf] at h1 ⊢
    by_cases hk : k ≠ .devdax ∧ en = false
    · rw [if_pos hk]
    rw [if_neg hk] at h1 ⊢
    cases e with
    | none => rfl
    | some e =>
      cases z with
      | true => rfl
      | false => exact absurd rfl h1
  | fileAlloc a =>
    cases a with
    | served e => cases e <;> rfl
    | wrongAlign => rfl
    | refused e => exact absurd rfl (h2 e)
    | mmap => exact absurd rfl h1
    | late e => rfl
    | done => rfl
  | quiet k e => rfl

theorem store_buf {r : Rec} {a b : Int} : (store r a b).buf = r.buf := rfl

theorem bindLoop_buf {log : Int → Int} : ∀ {l : List (Option Int)} {r : Rec},
    (bindLoop log r l).1.buf = r.buf := by
  intro l
  induction l with
  | nil => intro r; rfl
  | cons b l ih =>
    intro r
    cases b with
    | none => exact ih
    | some e =>
      unfold bindLoop
      dsimp only
      split
      · rfl
      · rw [ih]; rfl

theorem run_buf (op : Op) (log : Int → Int) (r : Rec) : (op.run log r).1.buf = r.buf := by
  cases op with
  | osInit i l e => cases i <;> cases l <;> rfl
  | osAlloc a =>
    simp only [Op.run, osAlloc]
    repeat' split
    all_goals first | rfl | exact bindLoop_buf
  | osFree n e => cases n <;> cases e <;> rfl
  | purgeLazy k e => cases k <;> cases e <;> rfl
  | purgeForce k e => cases e <;> rfl
  | osOpen a => simp only [Op.run, osOpen]; repeat' split
                all_goals rfl
  | fileOpen a => simp only [Op.run, fileOpen]; repeat' split
                  all_goals rfl
  | devdaxOpen a => simp only [Op.run, devdaxOpen]; repeat' split
                    all_goals rfl
  | ipcClose k en z e => simp only [Op.run, ipcClose]; repeat' split
                         all_goals rfl
  | fileAlloc a => cases a with
    | served e => cases e <;> rfl
    | _ => rfl
  | quiet k e => rfl

/-- There is a documented code in the record. -/
def HasCode (k : Kind) (r : Rec) : Prop := ∃ f, Code k f r.code

theorem bindLoop_code {log : Int → Int} : ∀ {l : List (Option Int)} {r : Rec}, HasCode .os r →
    HasCode .os (bindLoop log r l).1 := by
  intro l
  induction l with
  | nil => intro r h; exact h
  | cons b l ih =>
    intro r h
    cases b with
    | none => exact ih h
    | some e =>
      unfold bindLoop
      dsimp only
      split
      · exact ⟨_, .os3⟩
      · exact ih ⟨_, .os3⟩

theorem run_code (op : Op) (log : Int → Int) {r : Rec} (h : HasCode op.kind r) :
    HasCode op.kind (op.run log r).1 := by
  cases op with
  | osInit i l e =>
    cases i
    · exact h
    · cases l
      · exact ⟨_, .os7⟩
      · exact h
  | osAlloc a =>
    simp only [Op.run, osAlloc]
    repeat' split
    all_goals first | exact h | exact ⟨_, .os1⟩ | exact ⟨_, .os2⟩ | exact bindLoop_code h
  | osFree n e =>
    cases n
    · cases e
      · exact h
      · exact ⟨_, .os4⟩
    · exact h
  | purgeLazy k e =>
    cases k
    · cases e
      · exact h
      · exact ⟨_, .os5⟩
    all_goals exact h
  | purgeForce k e =>
    cases e
    · exact h
    · cases k
      · exact ⟨_, .os6⟩
      · exact ⟨_, .file3⟩
      · exact ⟨_, .dax4⟩
      · exact ⟨_, .fix1⟩
  | osOpen a =>
    simp only [Op.run, osOpen]
    repeat' split
    all_goals first | exact h | exact ⟨_, .os1⟩
  | fileOpen a =>
    simp only [Op.run, fileOpen]
    repeat' split
    all_goals first | exact h | exact ⟨_, .file1⟩
  | devdaxOpen a =>
    simp only [Op.run, devdaxOpen]
    repeat' split
    all_goals first | exact h | exact ⟨_, .dax1⟩
  | ipcClose k en z e =>
    simp only [Op.run, ipcClose]
    by_cases hf : k = .fixed
    · rw [if_pos hf]; exact h
    rw [if_neg hf]
    by_cases hk : k ≠ .devdax ∧ en = false
    · rw [if_pos hk]; exact h
    rw [if_neg hk]
    cases e with
    | none => exact h
    | some e =>
      cases z with
      | true => exact h
      | false =>
        cases k
        · exact ⟨_, .os4⟩
        · exact ⟨_, .file2⟩
        · exact ⟨_, .dax3⟩
        · exact absurd rfl hf
  | fileAlloc a =>
    cases a with
    | served e => cases e <;> exact h
    | refused e => exact ⟨_, .file1⟩
    | mmap => exact ⟨_, .file1⟩
    | _ => exact h
  | quiet k e => exact h

theorem poke_spec {buf s : Bytes} {pos : Nat} (h : pos + s.length + 1 ≤ buf.length) :
    ∃ b, poke buf pos s = some b ∧ b.length = buf.length ∧
      ∃ rest, b = buf.take pos ++ s ++ 0 :: rest := by
  unfold poke
  rw [if_pos h]
  refine ⟨_, rfl, ?_, buf.drop (pos + s.length + 1), by simp⟩
  simp only [List.length_append, List.length_take, List.length_drop, List.length_singleton]
  omega

theorem poke_length {buf s b : Bytes} {pos : Nat} (h : poke buf pos s = some b) :
    b.length = buf.length := by
  unfold poke at h
  split at h
  · cases h
    simp only [List.length_append, List.length_take, List.length_drop, List.length_singleton]
    omega
  · cases h

theorem query_same {k : Kind} {r r' : Rec} {strerr : Int → Bytes} {c : Int} {p : Ptr}
    (h : query k r strerr = some (c, p, r')) :
    r'.code = r.code ∧ r'.errno = r.errno ∧ r'.buf.length = r.buf.length := by
  unfold query at h
  dsimp only at h
  split at h
  · cases h
  split at h
  · cases h
  split at h
  · cases h
    exact ⟨rfl, rfl, rfl⟩
  · simp only [Option.bind_eq_bind, Option.bind_eq_some_iff] at h
    obtain ⟨b1, h1, b2, h2, b3, h3, h4⟩ := h
    cases h4
    exact ⟨rfl, rfl, by dsimp only; rw [poke_length h3, poke_length h2, poke_length h1]⟩

theorem text_ok (f : Fault) : (lit f.text).length ≤ 40 ∧ ∀ c ∈ lit f.text, c ≠ 0 := by
  cases f <;> exact ⟨by decide +kernel, by decide +kernel⟩

theorem code_ok {k : Kind} {f : Fault} {c : Int} (h : Code k f c) :
    ¬ (c - start k < 0) ∧ (table k)[(c - start k).toNat]? = some f.text := by
  cases h <;> exact ⟨by decide +kernel, by decide +kernel⟩

/-- What is answered for a recorded fault. -/
theorem query_spec {k : Kind} {r : Rec} {f : Fault} {e : Option Int} {c : Int}
    (hc : Code k f c) (h1 : r.code = c) (h2 : r.errno = e.getD 0) (he : e ≠ some 0)
    (hb : r.buf.length = 1024) {strerr : Int → Bytes} (hs : ∀ n, ∀ x ∈ strerr n, x ≠ 0) :
    ∃ p r', query k r strerr = some (c, p, r') ∧
      ∀ T t, Says (set T t k r') t k p (Message strerr f e) := by
  obtain ⟨h3, h4⟩ := code_ok hc
  obtain ⟨h5, h6⟩ := text_ok f
  unfold query
  dsimp only
  rw [h1, if_neg h3, h4]
  dsimp only
  cases e with
  | none =>
    rw [if_pos (by rw [h2]; rfl)]
    exact ⟨_, _, rfl, fun _ _ => rfl⟩
  | some n =>
    have hn : r.errno = n := h2
    rw [if_neg (by rw [hn]; exact fun x => he (by rw [x]))]
    have hl : (lit ": ").length = 2 := by decide +kernel
    obtain ⟨b1, p1, l1, rest1, e1⟩ := poke_spec (buf := r.buf) (s := lit f.text) (pos := 0) (by rw [hb]; omega)
    obtain ⟨b2, p2, l2, rest2, e2⟩ := poke_spec (buf := b1) (s := lit ": ") (pos := 0 + (lit f.text).length)
      (by rw [l1, hb, hl]; omega)
    have hbl : bufLen = 1024 := rfl
    obtain ⟨b3, p3, l3, rest3, e3⟩ := poke_spec (buf := b2)
      (s := (strerr n).take (bufLen - (0 + (lit f.text).length + (lit ": ").length) - 1))
      (pos := 0 + (lit f.text).length + (lit ": ").length)
      (by rw [l2, l1, hb, hl, List.length_take, hbl]; omega)
    simp only [Option.bind_eq_bind, p1, p2, hn, p3, Option.bind_some]
    refine ⟨_, _, rfl, fun T t => ?_⟩
    have t1 : b1.take (0 + (lit f.text).length) = lit f.text := by
      rw [e1, Nat.zero_add]
      simp
    have t2 : b2.take (0 + (lit f.text).length + (lit ": ").length) = lit f.text ++ lit ": " := by
      rw [e2, t1, Nat.zero_add, ← List.length_append]
      exact List.take_left
    have hm : Message strerr f (some n) = lit f.text ++ lit ": " ++
        (strerr n).take (bufLen - (0 + (lit f.text).length + (lit ": ").length) - 1) := by
      unfold Message
      dsimp only
      rw [List.take_append (l₁ := lit f.text ++ lit ": ")]
      rw [List.take_of_length_le (by rw [List.length_append, hl]; omega), List.length_append, hbl]
      congr 2
      omega
    unfold Says
    dsimp only
    unfold set
    rw [if_pos ⟨rfl, rfl⟩, hm]
    refine ⟨?_, rest3, ?_⟩
    · intro x hx
      rw [List.mem_append, List.mem_append] at hx
      rcases hx with (hx | hx) | hx
      · exact h6 x hx
      · revert x
        decide +kernel
      · exact hs n x (List.mem_of_mem_take hx)
    · dsimp only
      rw [e3, t2]

end Verif.Native
