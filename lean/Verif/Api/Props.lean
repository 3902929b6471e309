import Verif.Api.Spec
import Mathlib.Tactic.Tauto
import Mathlib.Tactic.ByContra
/-!
# C32, C33: provider interface
-/
namespace Verif.Api
variable {F : Type}

theorem validate_iff (o : Ops F) : validateOps o = true ↔ Acceptable o := by
  unfold validateOps validateMandatory validateExt validateIpc Acceptable mandatory ipcSlots
  simp only [Bool.and_eq_true, Bool.or_eq_true, Bool.not_eq_true', List.mem_cons, List.not_mem_nil,
    or_false, forall_eq_or_imp, forall_eq, Option.isSome_iff_ne_none, Option.isSome_eq_false_iff,
    Option.isNone_iff_eq_none]
  constructor
  · rintro ⟨⟨h1, h2⟩, h3⟩
    refine ⟨by tauto, ?_, by tauto⟩
    rcases h2 with ⟨a, b⟩ | ⟨a, b⟩ <;> simp [a, b]
  · rintro ⟨h1, h2, h3⟩
    refine ⟨⟨by tauto, ?_⟩, by tauto⟩
    by_cases hs : o .split = none
    · exact Or.inr ⟨hs, h2.1 hs⟩
    · exact Or.inl ⟨hs, fun h => hs (h2.2 h)⟩

/-- **C32**, creation. For every table, every parameter and every user function: `initialize` is
called, exactly once, if and only if the table is acceptable, the output pointer is given and there is
host memory; otherwise no user function is called. A provider is returned if and only if
`initialize` returned success; the result is then success, and otherwise the user's error,
INVALID_ARGUMENT or OUT_OF_HOST_MEMORY; nothing crashes. -/
theorem C32_create (ops : Option (Ops F)) (out host : Bool) (params : Nat)
    (init : F → Nat → Res × Nat) :
    match ops with
    | none => create ops out host params init = (.ret .invalidArgument, none, [])
    | some o =>
      (¬ (Acceptable o ∧ out = true) →
        create ops out host params init = (.ret .invalidArgument, none, [])) ∧
      (Acceptable o ∧ out = true → host = false →
        create ops out host params init = (.ret .outOfHostMemory, none, [])) ∧
      (Acceptable o ∧ out = true → host = true → ∃ f t, o .initialize = some f ∧
        create ops out host params init = (.ret (init f params).1,
          (if (init f params).1 = .success then some ⟨(init f params).2, t⟩ else none),
          [(f, [params])])) := by
  cases ops with
  | none => rfl
  | some o =>
    have hv := validate_iff o
    refine ⟨?_, ?_, ?_⟩
    · intro h
      unfold create
      simp only
      rw [if_pos]
      by_cases ho : out = false
      · exact Or.inl ho
      · right
        by_contra hc
        exact h ⟨hv.1 (by simpa using hc), by simpa using ho⟩
    · rintro ⟨h1, h2⟩ h3
      unfold create
      simp only
      rw [if_neg, if_pos h3]
      rw [hv.2 h1, h2]; simp
    · rintro ⟨h1, h2⟩ h3
      unfold create
      simp only
      rw [if_neg (by rw [hv.2 h1, h2]; simp), if_neg (by simp [h3])]
      cases hf : o .initialize with
      | none => exact absurd hf (h1.1 _ (by simp [mandatory]))
      | some f =>
        refine ⟨f, assignIpc (assignExt fun s => (o s).map .user), rfl, ?_⟩
        simp only
        rcases hi : init f params with ⟨r, priv⟩
        cases r <;> simp

/-- The table of a created provider. -/
theorem create_table {o : Ops F} {out host : Bool} {params : Nat} {init : F → Nat → Res × Nat}
    {r : Outcome} {p : Provider F} {tr : Trace F}
    (h : create (some o) out host params init = (r, some p, tr)) :
    Acceptable o ∧ ∀ s, p.table s =
      match o s with
      | some f => some (.user f)
      | none => if s ∈ optional then some .unsupported else none := by
  unfold create at h
  simp only at h
  split at h
  · cases h
  · rename_i hc
    have hv : validateOps o = true := by
      by_contra hx
      exact hc (Or.inr (by simpa using hx))
    split at h
    · cases h
    · split at h
      · cases h
      · split at h
        · cases h
          refine ⟨(validate_iff o).1 hv, fun s => ?_⟩
          unfold assignIpc assignExt setDefault optional
          cases s <;> cases hs : o _ <;> simp [hs]
        · cases h

theorem checks_iff (c : Call) : c.checks = true ↔ ArgsOk c := by
  cases c <;> simp only [Call.checks, ArgsOk, Bool.and_eq_true, bne_iff_ne, decide_eq_true_eq, ne_eq] <;> omega

theorem stands_iff (c : Call) : Stands c c.slot c.args := by
  cases c <;> exact ⟨rfl, rfl⟩

theorem reports_iff (c : Call) : c.reports = true ↔ ¬ IsIpc c := by
  cases c <;> simp [Call.reports, IsIpc]

/-- **C32**, dispatch. For every created provider, every call with every argument: if the handle is
null or the arguments are not allowed, the result is INVALID_ARGUMENT and no user function runs; if the table had the
function, it runs exactly once, with the private pointer and the arguments unchanged, and its result is
returned; if the table did not have it, the result is NOT_SUPPORTED. Nothing crashes. -/
theorem C32_dispatch {o : Ops F} {out host : Bool} {params : Nat} {init : F → Nat → Res × Nat}
    {r : Outcome} {p : Provider F} {tr : Trace F}
    (h : create (some o) out host params init = (r, some p, tr)) (w : World F) {a : Nat}
    (hw : w.provider a = some p) (tid : Nat) (c : Call) (run : F → List Nat → Res) :
    (call w tid none c run).2 = (.ret .invalidArgument, []) ∧
    (¬ ArgsOk c → (call w tid (some a) c run).2 = (.ret .invalidArgument, [])) ∧
    (ArgsOk c → ∃ s l, Stands c s l ∧
      (∀ f, o s = some f →
        (call w tid (some a) c run).2 = (.ret (run f (p.priv :: l)), [(f, p.priv :: l)])) ∧
      (o s = none → (call w tid (some a) c run).2 = (.ret .notSupported, []))) := by
  obtain ⟨hacc, ht⟩ := create_table h
  refine ⟨rfl, ?_, ?_⟩
  · intro hc
    have hc : c.checks = false := by
      by_contra hx
      exact hc ((checks_iff c).1 (by simpa using hx))
    unfold call
    simp only
    rw [if_pos hc]
  · intro hc
    have hc : c.checks = true := (checks_iff c).2 hc
    refine ⟨c.slot, c.args, stands_iff c, ?_, ?_⟩
    · intro f hf
      unfold call
      simp only
      rw [if_neg (by simp [hc]), hw]
      simp only
      unfold invoke
      rw [ht, hf]
    · intro hn
      unfold call
      simp only
      rw [if_neg (by simp [hc]), hw]
      simp only
      unfold invoke
      rw [ht, hn]
      have : c.slot ∈ optional := by
        cases c <;> simp [Call.slot, optional]
        all_goals exact absurd hn (hacc.1 _ (by simp [mandatory, Call.slot]))
      simp only
      rw [if_pos this]

/-- A table with the mandatory functions and purge_lazy, numbered. -/
def demo : Ops Nat := fun s =>
  match s with
  | .alloc => some 1 | .free => some 2 | .lastError => some 3 | .recPage => some 4
  | .minPage => some 5 | .initialize => some 6 | .finalize => some 7 | .getName => some 8
  | .purgeLazy => some 9 | _ => none

example : Acceptable demo ∧ ∃ p, create (some demo) true true 77 (fun _ x => (.success, x + 1)) =
    (.ret .success, some p, [(6, [77])]) ∧ p.priv = 78 := by
  refine ⟨(validate_iff demo).1 (by decide), ⟨78, _⟩, rfl, rfl⟩

/-! ## C33 -/

/-- **C33** (missing: the IPC functions, which do not report, see `C33_ipc_violated`). In every history of
calls by any threads in which no IPC call fails, the last failed provider of a thread is the provider
of the last failing call of this thread that reached its provider. -/
theorem C33_lastFailed_partial {w0 w : World F} {es : List Ev} (h : Hist w0 w es)
    (h0 : ∀ t, w0.last t = none) (hi : ∀ e ∈ es, IsIpc e.c → e.r = .ret .success)
    (tid : Nat) (hc : ∀ e ∈ es, e.r ≠ .crash) : LastFailing tid es (lastFailed w tid) := by
  induction h with
  | nil => exact Or.inl ⟨h0 tid, fun e he => by cases he⟩
  | @call w es t h c run w' r tr hh hcall ih =>
    have ih := ih (fun e he => hi e (by simp [he])) (fun e he => hc e (by simp [he]))
    have hnew := hi ⟨t, h, c, r⟩ (by simp)
    have hcr := hc ⟨t, h, c, r⟩ (by simp)
    simp only at hnew hcr
    -- either the variable of this thread is set, or the new event does not count
    have keep : lastFailed w' tid = lastFailed w tid →
        ¬ (t = tid ∧ (h ≠ none ∧ ArgsOk c) ∧ r ≠ .ret .success) →
        LastFailing tid (es ++ [⟨t, h, c, r⟩]) (lastFailed w' tid) := by
      intro he hn
      rw [he]
      rcases ih with ⟨i1, i2⟩ | ⟨b, e, a, i1, i2, i3, i4, i5, i6, i7⟩
      · left
        refine ⟨i1, fun e he => ?_⟩
        rcases List.mem_append.1 he with he | he
        · exact i2 e he
        · rw [List.mem_singleton] at he
          subst he
          exact hn
      · right
        refine ⟨b, e, a ++ [⟨t, h, c, r⟩], by rw [i1]; simp, i2, i3, i4, i5, i6, ?_⟩
        intro x hx
        rcases List.mem_append.1 hx with hx | hx
        · exact i7 x hx
        · rw [List.mem_singleton] at hx
          subst hx
          exact hn
    unfold call at hcall
    cases h with
    | none =>
      simp only at hcall
      cases hcall
      exact keep rfl (by simp)
    | some a =>
      simp only at hcall
      split at hcall
      · rename_i hck
        cases hcall
        exact keep rfl (by simp [← checks_iff, hck])
      · rename_i hck
        have hck : c.checks = true := by simpa using hck
        split at hcall
        · cases hcall
          exact absurd rfl hcr
        · rename_i p hp
          obtain ⟨e1, e2⟩ := Prod.ext_iff.1 hcall
          simp only at e1 e2
          have e3 : (invoke p c.slot c.args run).1 = r := by rw [e2]
          rw [e3] at e1
          by_cases hs : r = .ret .success
          · apply keep
            · rw [← e1]
              unfold lastFailed setLast
              split
              · rw [if_neg (by simp [hs])]
              · rfl
            · simp [hs]
          · have hr : c.reports = true := by
              exact (reports_iff c).2 fun h => hs (hnew h)
            rw [if_pos hr] at e1
            by_cases ht : t = tid
            · right
              refine ⟨es, _, [], rfl, ht, ⟨by simp, (checks_iff c).1 hck⟩, hs, ?_, ?_, fun x hx => by cases hx⟩
              · rw [← e1]
                unfold lastFailed setLast
                rw [if_pos hs]
                simp [ht]
              · rw [← e1]
                unfold lastFailed setLast
                rw [if_pos hs]
                simp [ht]
            · apply keep
              · rw [← e1]
                unfold lastFailed setLast
                rw [if_pos hs]
                simp only
                rw [if_neg (fun h => ht h.symm)]
              · exact fun h => ht h.1

/-- A world with one provider per handle 1 and 2, made from `demo`. -/
def demoWorld : World Nat :=
  ⟨fun h => if h = 1 ∨ h = 2 then some ⟨h, assignIpc (assignExt fun s => (demo s).map .user)⟩ else none,
    fun _ => none⟩

/-- The hypotheses are met: thread 5 fails on provider 1, thread 6 on provider 2, thread 5 has a refused
call and a success afterwards. -/
example : ∃ w es, Hist demoWorld w es ∧ es.length = 4 ∧ (∀ e ∈ es, ¬ IsIpc e.c) ∧
    (∀ e ∈ es, e.r ≠ .crash) ∧ lastFailed w 5 = some 1 ∧ lastFailed w 6 = some 2 := by
  let run : Nat → List Nat → Res := fun f _ => if f = 1 then .other 9 else .success
  let w1 := (call demoWorld 5 (some 1) (.alloc 10 0 1) run).1
  let w2 := (call w1 6 (some 2) (.alloc 10 0 1) run).1
  let w3 := (call w2 5 (some 2) (.split 7 10 10) run).1
  let w4 := (call w3 5 (some 2) (.free 7 10) run).1
  have h1 : Hist demoWorld w1 _ := Hist.call (tid := 5) (h := some 1) (c := .alloc 10 0 1)
    (run := run) Hist.nil rfl
  have h2 : Hist demoWorld w2 _ := Hist.call (tid := 6) (h := some 2) (c := .alloc 10 0 1)
    (run := run) h1 rfl
  have h3 : Hist demoWorld w3 _ := Hist.call (tid := 5) (h := some 2) (c := .split 7 10 10)
    (run := run) h2 rfl
  have h4 : Hist demoWorld w4 _ := Hist.call (tid := 5) (h := some 2) (c := .free 7 10)
    (run := run) h3 rfl
  refine ⟨w4, _, h4, rfl, ?_, ?_, by decide, by decide⟩
  · simp [IsIpc]
  · decide

/-- **C33** fails for IPC calls: a call that reaches the provider and fails is not reported. -/
theorem C33_ipc_violated : ∃ (w w' : World Nat) (run : Nat → List Nat → Res) (r : Outcome)
    (tr : Trace Nat), (∀ t, w.last t = none) ∧
      call w 5 (some 1) (.ipcClose 7 10) run = (w', r, tr) ∧ r = .ret .notSupported ∧
      lastFailed w' 5 = none :=
  ⟨demoWorld, demoWorld, fun _ _ => .success, _, [], fun _ => rfl, rfl, rfl, rfl⟩

/-- With a tracked pool the provider reported is the pool's internal wrapper: whenever an allocation fails in
the provider the user gave to the pool, the handle reported is not that provider. -/
theorem C33_hiddenProvider_violated (w : World F) {tid wrapper upstream size al out : Nat}
    {run : F → List Nat → Res} (hne : wrapper ≠ upstream) {w' : World F} {r : Res}
    (h : trackedAlloc w tid wrapper upstream size al out run = (w', .ret r)) (hr : r ≠ .success) :
    lastFailed w' tid = some wrapper ∧ lastFailed w' tid ≠ some upstream := by
  unfold trackedAlloc at h
  simp only at h
  split at h
  · cases h
  · rename_i res _
    obtain ⟨e1, e2⟩ := Prod.ext_iff.1 h
    simp only [Outcome.ret.injEq] at e1 e2
    subst e2
    rw [← e1]
    unfold lastFailed setLast
    rw [if_pos (by simpa using hr)]
    simp only [if_true, ne_eq, Option.some.injEq]
    exact ⟨trivial, hne⟩

example : ∃ w', trackedAlloc demoWorld 5 9 1 10 0 1 (fun _ _ => .other 3) = (w', .ret (.other 3)) :=
  ⟨_, rfl⟩

end Verif.Api
