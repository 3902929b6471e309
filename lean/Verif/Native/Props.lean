import Verif.Native.Lemmas
/-!
# C71: the last native error of the OS, file, devdax and fixed providers

`run strerr tls0 evs`: the records of all threads after a history `evs` of calls and queries of any
number of threads.
-/
namespace Verif.Native
open Gpu.Msg (Bytes lit)

variable {strerr : Int → Bytes} {T T' : Tls}

theorem run_append {l1 l2 : List Ev} :
    run strerr T (l1 ++ l2) = (run strerr T l1).bind fun T => run strerr T l2 := by
  induction l1 generalizing T with
  | nil => rfl
  | cons e l ih =>
    simp only [List.cons_append, run]
    cases step strerr T e with
    | none => rfl
    | some T1 => exact ih

theorem step_length {ev : Ev} (h : ∀ t k, (T t k).buf.length = 1024) (hs : step strerr T ev = some T') :
    ∀ t k, (T' t k).buf.length = 1024 := by
  intro t k
  cases ev with
  | call t' op log =>
    simp only [step, Option.some.injEq] at hs
    subst hs
    unfold set
    split
    · rw [run_buf]; exact h _ _
    · exact h _ _
  | ask t' k' =>
    simp only [step, Option.map_eq_some_iff] at hs
    obtain ⟨⟨c, p, r⟩, h1, rfl⟩ := hs
    unfold set
    split
    · rw [(query_same h1).2.2]; exact h _ _
    · exact h _ _

theorem run_length {l : List Ev} (h : ∀ t k, (T t k).buf.length = 1024) (hs : run strerr T l = some T') :
    ∀ t k, (T' t k).buf.length = 1024 := by
  induction l generalizing T with
  | nil => cases hs; exact h
  | cons e l ih =>
    simp only [run, Option.bind_eq_some_iff] at hs
    obtain ⟨T1, h1, h2⟩ := hs
    exact ih (step_length h h1) h2

theorem tls0_length : ∀ t k, (tls0 t k).buf.length = 1024 := fun _ _ => List.length_replicate

/-- The events that leave the record of thread `t` for providers of kind `k` alone: everything
other threads do, calls on other providers, harmless calls, and queries. -/
def Leaves (t : Nat) (k : Kind) : Ev → Prop
  | .call t' op log => t' = t → op.kind = k → Harmless op log
  | .ask _ _ => True

theorem step_leaves {ev : Ev} {t : Nat} {k : Kind} (hl : Leaves t k ev)
    (hs : step strerr T ev = some T') :
    (T' t k).code = (T t k).code ∧ (T' t k).errno = (T t k).errno := by
  cases ev with
  | call t' op log =>
    simp only [step, Option.some.injEq] at hs
    subst hs
    unfold set
    split
    · rename_i hc
      obtain ⟨rfl, rfl⟩ := hc
      rw [run_harmless (hl rfl rfl)]
      exact ⟨rfl, rfl⟩
    · exact ⟨rfl, rfl⟩
  | ask t' k' =>
    simp only [step, Option.map_eq_some_iff] at hs
    obtain ⟨⟨c, p, r⟩, h1, rfl⟩ := hs
    unfold set
    split
    · rename_i hc
      obtain ⟨rfl, rfl⟩ := hc
      exact ⟨(query_same h1).1, (query_same h1).2.1⟩
    · exact ⟨rfl, rfl⟩

theorem run_leaves {l : List Ev} {t : Nat} {k : Kind} (hl : ∀ ev ∈ l, Leaves t k ev)
    (hs : run strerr T l = some T') :
    (T' t k).code = (T t k).code ∧ (T' t k).errno = (T t k).errno := by
  induction l generalizing T with
  | nil => cases hs; exact ⟨rfl, rfl⟩
  | cons e l ih =>
    simp only [run, Option.bind_eq_some_iff] at hs
    obtain ⟨T1, h1, h2⟩ := hs
    have h3 := ih (fun ev hev => hl ev (List.mem_cons_of_mem _ hev)) h2
    have h4 := step_leaves (hl e List.mem_cons_self) h1
    exact ⟨h3.1.trans h4.1, h3.2.trans h4.2⟩

/-- **C71** (partial: see `Plain` and `Harmless`). After any history `pre`, thread `t` makes a call
that returns the provider specific error. Whatever then happens in other threads and on other
kinds of providers, and however many harmless calls and queries the thread makes, the query gives
the documented code of a fault that the answers to the call account for, and a message that is the
text of that fault, with the system's explanation of `errno` for a failed system call, terminated
and within the buffer. -/
theorem C71_report_partial (hstr : ∀ n, ∀ x ∈ strerr n, x ≠ 0) {pre post : List Ev} {T0 : Tls}
    (h0 : run strerr tls0 pre = some T0) {t : Nat} {op : Op} {log : Int → Int} (hp : Plain op log)
    (hop : (op.run log (T0 t op.kind)).2 = .specific) (hl : ∀ ev ∈ post, Leaves t op.kind ev)
    (h : run strerr tls0 (pre ++ .call t op log :: post) = some T) :
    ∃ f e c p r, Because op f e ∧ Code op.kind f c ∧
      query op.kind (T t op.kind) strerr = some (c, p, r) ∧
      Says (set T t op.kind r) t op.kind p (Message strerr f e) := by
  rw [run_append, h0] at h
  simp only [Option.bind_some, run, step, Option.bind_some] at h
  rcases hr : op.run log (T0 t op.kind) with ⟨r1, res⟩
  rw [hr] at hop h
  dsimp only at hop h
  subst hop
  obtain ⟨f, e, c, h1, h2, h3, h4⟩ := run_spec hp hr
  obtain ⟨h5, h6⟩ := run_leaves hl h
  have hlen := run_length (run_length (strerr := strerr) (T := T0) (l := [.call t op log]) (run_length tls0_length h0)
    (T' := set T0 t op.kind r1) (by simp only [run, step, hr, Option.bind_some])) h
  have hset : set T0 t op.kind r1 t op.kind = r1 := by
    unfold set
    rw [if_pos ⟨rfl, rfl⟩]
  rw [hset, h4] at h5 h6
  obtain ⟨p, r', h7, h8⟩ := query_spec (r := T t op.kind) h2 h5 h6 h3 (hlen _ _) hstr
  exact ⟨f, e, c, p, r', h1, h2, h7, h8 T t⟩

/-- **C71**, calls of other threads never change what a thread is told, without assumptions. -/
theorem C71_threads {t t' : Nat} (hne : t' ≠ t) (k : Kind) {ev : Ev}
    (hev : (∃ op log, ev = .call t' op log) ∨ ∃ k', ev = .ask t' k') (hs : step strerr T ev = some T') :
    query k (T' t k) strerr = query k (T t k) strerr := by
  have : T' t k = T t k := by
    rcases hev with ⟨op, log, rfl⟩ | ⟨k', rfl⟩
    · simp only [step, Option.some.injEq] at hs
      subst hs
      unfold set
      rw [if_neg (fun h => hne h.1.symm)]
    · simp only [step, Option.map_eq_some_iff] at hs
      obtain ⟨_, _, rfl⟩ := hs
      unfold set
      rw [if_neg (fun h => hne h.1.symm)]
  rw [this]

theorem run_hasCode {k : Kind} {t : Nat} {l : List Ev} (h : run strerr T l = some T')
    (hc : HasCode k (T t k)) : HasCode k (T' t k) := by
  induction l generalizing T with
  | nil => cases h; exact hc
  | cons e l ih =>
    simp only [run, Option.bind_eq_some_iff] at h
    obtain ⟨T1, h1, h2⟩ := h
    refine ih h2 ?_
    cases e with
    | call t' op log =>
      simp only [step, Option.some.injEq] at h1
      subst h1
      unfold set
      split
      · rename_i hx
        obtain ⟨rfl, rfl⟩ := hx
        exact run_code op log hc
      · exact hc
    | ask t' k' =>
      simp only [step, Option.map_eq_some_iff] at h1
      obtain ⟨⟨c, p, r⟩, h3, rfl⟩ := h1
      unfold set
      split
      · rename_i hx
        obtain ⟨rfl, rfl⟩ := hx
        obtain ⟨f, hf⟩ := hc
        exact ⟨f, by dsimp only; rw [(query_same h3).1]; exact hf⟩
      · exact hc

/-- **C71** (partial: the bitmap allocation in split mode must not be what failed). Once a call of
the thread on a provider has returned the provider specific error, queries in the thread for this
kind of provider never read or write outside, whatever any thread does afterwards. -/
theorem C71_defined_partial {pre post : List Ev} {T0 : Tls}
    (h0 : run strerr tls0 pre = some T0) {t : Nat} {op : Op} {log : Int → Int} (hp : Plain op log)
    (hop : (op.run log (T0 t op.kind)).2 = .specific)
    (h : run strerr tls0 (pre ++ .call t op log :: post) = some T) :
    ∃ q, query op.kind (T t op.kind) strerr = some q := by
  have hlen := run_length tls0_length h t op.kind
  rw [run_append, h0] at h
  simp only [Option.bind_some, run, step, Option.bind_some] at h
  rcases hr : op.run log (T0 t op.kind) with ⟨r1, res⟩
  rw [hr] at hop h
  dsimp only at hop h
  subst hop
  obtain ⟨f, e, c, _, h2, _, h4⟩ := run_spec hp hr
  obtain ⟨f, h1⟩ := run_hasCode (t := t) (k := op.kind) h ⟨f, by
    unfold set
    rw [if_pos ⟨rfl, rfl⟩, h4]
    exact h2⟩
  generalize op.kind = k at *
  obtain ⟨h3, h4⟩ := code_ok h1
  obtain ⟨h5, h6⟩ := text_ok f
  unfold query
  dsimp only
  rw [if_neg h3, h4]
  dsimp only
  by_cases he : (T t k).errno = 0
  · rw [if_pos he]
    exact ⟨_, rfl⟩
  · rw [if_neg he]
    have hl : (lit ": ").length = 2 := by decide +kernel
    have hbl : bufLen = 1024 := rfl
    obtain ⟨b1, p1, l1, _⟩ := poke_spec (buf := (T t k).buf) (s := lit f.text) (pos := 0) (by rw [hlen]; omega)
    obtain ⟨b2, p2, l2, _⟩ := poke_spec (buf := b1) (s := lit ": ") (pos := 0 + (lit f.text).length)
      (by rw [l1, hlen, hl]; omega)
    obtain ⟨b3, p3, l3, _⟩ := poke_spec (buf := b2)
      (s := (strerr (T t k).errno).take (bufLen - (0 + (lit f.text).length + (lit ": ").length) - 1))
      (pos := 0 + (lit f.text).length + (lit ": ").length)
      (by rw [l2, l1, hlen, hl, List.length_take, hbl]; omega)
    simp only [Option.bind_eq_bind, p1, p2, p3, Option.bind_some]
    exact ⟨_, rfl⟩

/-! ## A concrete history -/

/-- What the system says. -/
def exErr : Int → Bytes := fun n => if n = 12 then lit "Cannot allocate memory" else lit "Input/output error"

def same : Int → Int := fun e => e

/-- Thread 1 fails to purge memory of a file provider; then thread 0 fails to free memory of an OS
provider; thread 1 fails to map, thread 0 allocates from the OS provider with success. -/
def exPre : List Ev := [.call 1 (.purgeForce .file (some 12)) same]
def exOp : Op := .osFree false (some 12)
def exPost : List Ev :=
  [.call 1 (.osAlloc ⟨false, false, false, false, false, true, []⟩) same, .ask 0 .os,
    .call 0 (.osAlloc ⟨false, true, false, true, false, true, [none, none]⟩) same,
    .call 0 (.fileAlloc .mmap) same]

theorem exErr_ok : ∀ n, ∀ x ∈ exErr n, x ≠ 0 := by
  intro n
  unfold exErr
  split <;> decide +kernel

theorem exOp_plain : Plain exOp same where
  free h := by cases h; decide
  lazy h := by cases h
  force h := by cases h
  osOpen h := by cases h
  fileOpen h := by cases h
  devdaxOpen h := by cases h
  close h := by cases h
  bitmap h := by cases h
  log _ := rfl

theorem exPost_leaves : ∀ ev ∈ exPost, Leaves 0 exOp.kind ev := by
  intro ev h
  simp only [exPost, List.mem_cons, List.not_mem_nil, or_false] at h
  rcases h with rfl | rfl | rfl | rfl
  · intro h; cases h
  · trivial
  · intro _ _
    refine ⟨by decide +kernel, fun e => by simp, ?_⟩
    rintro a h b hb
    cases h
    simpa using hb
  · intro _ h; cases h

example : (run exErr tls0 exPre).isSome = true ∧
    ((run exErr tls0 (exPre ++ .call 0 exOp same :: exPost)).bind fun T =>
      (query .os (T 0 .os) exErr).map fun q =>
        (q.1, q.2.1, q.2.2.buf.take 50 == lit "memory deallocation failed: Cannot allocate memory")) =
      some (1004, .buf, true) ∧
    (∀ n, ∀ x ∈ exErr n, x ≠ 0) ∧ Plain exOp same ∧ ∀ ev ∈ exPost, Leaves 0 exOp.kind ev :=
  ⟨by decide +kernel, by decide +kernel, exErr_ok, exOp_plain, exPost_leaves⟩

/-- `C71_threads`: an event of thread 1 that is defined. -/
example : ∃ T', step exErr tls0 (.call 1 exOp same) = some T' ∧ (1 : Nat) ≠ 0 :=
  ⟨_, rfl, by decide⟩

/-! ## Where the claim fails -/

/-- Before the first failure in a thread the query reads the table of texts far outside, for every
kind of provider and in every thread, whatever was done with other providers. -/
theorem C71_first_violated (strerr : Int → Bytes) (k : Kind) : query k rec0 strerr = none := by
  cases k <;> rfl

/-- The bitmap for the split mode cannot be allocated: `umfMemoryProviderAlloc` returns the provider
specific error, nothing is recorded. If it is the thread's first failure, the query that the
documentation asks for reads outside the table. -/
theorem C71_bitmap_violated : ∃ a : OsAlloc, (osAlloc same rec0 a).2 = .specific ∧
    query .os (osAlloc same rec0 a).1 exErr = none :=
  ⟨⟨false, true, false, true, false, false, []⟩, rfl, rfl⟩

/-- The same failure after an earlier one: the query reports the earlier one. -/
theorem C71_stale_violated : ∃ a : OsAlloc, ∃ T, run exErr tls0
      [.call 0 (.purgeForce .os (some 12)) same, .call 0 (.osAlloc a) same] = some T ∧
    (osAlloc same (T 0 .os) a).2 = .specific ∧ (query .os (T 0 .os) exErr).map (·.1) = some 1006 :=
  ⟨⟨false, true, false, true, false, false, []⟩, _, rfl, rfl, by decide +kernel⟩

/-- A file provider: purging fails with the provider specific error; an allocation then fails with
another error. The query reports the allocation instead of the last call that returned the provider
specific error. -/
theorem C71_fileOverwrite_violated : ∃ T, run exErr tls0
      [.call 0 (.purgeForce .file (some 12)) same, .call 0 (.fileAlloc (.refused .unknown)) same] = some T ∧
    (fileAlloc (T 0 .file) (.refused .unknown)).2 = .other .unknown ∧
    (query .file (T 0 .file) exErr).map (·.1) = some 3001 :=
  ⟨_, rfl, rfl, by decide +kernel⟩

/-- An OS provider: purging fails; an allocation then succeeds on a system without memory binding.
The query reports that binding failed. -/
theorem C71_enosys_violated : ∃ a : OsAlloc, (osAlloc same rec0 a).2 = .success ∧ ∃ T, run exErr tls0
      [.call 0 (.purgeForce .os (some 12)) same, .call 0 (.osAlloc a) same] = some T ∧
    (query .os (T 0 .os) exErr).map (·.1) = some 1003 :=
  ⟨⟨false, true, false, true, false, true, [some 38]⟩, rfl, _, rfl, by decide +kernel⟩

/-- A file handle cannot be mapped for lack of memory (12) and closing the descriptor fails (5):
the message explains the second error. -/
theorem C71_close_violated : ∃ a : Open, a.mmap = some 12 ∧ (fileOpen rec0 a).2 = .specific ∧
    (fileOpen rec0 a).1.errno = 5 :=
  ⟨⟨true, none, some 12, some 5, true⟩, rfl, rfl, rfl⟩

/-- A devdax handle cannot be mapped (12), and printing the message about it changes `errno` (to 25,
as on the first output to something that is no terminal): the message explains the wrong error. -/
theorem C71_log_violated : ∃ (a : Open) (log : Int → Int), a.mmap = some 12 ∧ a.close = none ∧
    (devdaxOpen log rec0 a).2 = .specific ∧ (devdaxOpen log rec0 a).1.errno = 25 :=
  ⟨⟨true, none, some 12, none, true⟩, fun _ => 25, rfl, rfl, rfl, rfl⟩

/-- On a system without memory binding an allocation is to succeed. When printing the message
changes `errno`, it fails. -/
theorem C71_bindLog_violated : ∃ (a : OsAlloc) (log : Int → Int), a.binds = [some 38] ∧
    (osAlloc same rec0 a).2 = .success ∧ (osAlloc log rec0 a).2 = .specific :=
  ⟨⟨false, true, false, true, false, true, [some 38]⟩, fun _ => 25, rfl, rfl, rfl⟩

end Verif.Native
