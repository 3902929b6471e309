import Verif.Gpu.Witness
import Verif.Gpu.RunProofs2
import Verif.Gpu.MsgProofs

/-!
# Properties C54 to C59: the CUDA and Level Zero providers

`Reach E s` is any state that any number of threads can reach, whatever the drivers answer. The examples use the runs of
`Verif.Gpu.Witness`.
-/
namespace Verif.Gpu
open Witness

variable {E : Env} {s : St}

/-! ## C54: the current context of a thread -/

/-- After a call the thread's current context is the one its client made current, unless the driver refused a context call
while another one was current. -/
theorem C54_context_kept (h : Reach E s) {t : Tid} (ht : s.th t = none) (hl : s.lost t = false) :
    s.drv.cur t = s.user t := by
  obtain ⟨own, hi⟩ := h.inv
  exact hi.idleCtx t ht hl

example : Reach full a2 ∧ a2.th 0 = none ∧ a2.lost 0 = false ∧ a2.drv.cur 0 = 0 := ⟨a2_reach, rfl, rfl, rfl⟩

/-- Memory is allocated, freed and mapped in the context of the provider. Missing: getting a handle and closing a mapping,
see `C54_ipc_violated`. -/
theorem C54_context_used_partial (h : Reach E s) {t : Tid} {th : Th} {c : Call} {k : Resp → Prog}
    (ht : s.th t = some th) (hp : th.prog = .call c k) (hc : c.usesCtx = true) :
    ∃ p, th.op.cuProv = some p ∧ s.drv.cur t = p.ctx := by
  obtain ⟨own, hi⟩ := h.inv
  obtain ⟨own0, _, hw⟩ := hi.run t th ht
  rw [hp] at hw
  exact hw.2.1.1 hc

example : ∃ th c k, Reach full a6 ∧ a6.th 0 = some th ∧ th.prog = .call c k ∧ c.usesCtx = true ∧ a6.user 0 ≠ a6.drv.cur 0 :=
  ⟨_, _, _, a6_reach, rfl, rfl, rfl, by decide +kernel⟩

/-- A handle is asked for, and a mapping closed, while the current context is not the provider's. -/
theorem C54_ipc_violated :
    (∃ s th p q k, Reach full s ∧ s.th 0 = some th ∧ th.prog = .call (.cuIpcGetMemHandle q) k ∧
      th.op.cuProv = some p ∧ s.drv.cur 0 ≠ p.ctx) ∧
    ∃ s th p q k, Reach full s ∧ s.th 0 = some th ∧ th.prog = .call (.cuIpcCloseMemHandle q) k ∧
      th.op.cuProv = some p ∧ s.drv.cur 0 ≠ p.ctx :=
  ⟨⟨a3, _, cuPr, _, _, a3_reach, rfl, rfl, rfl, by decide +kernel⟩,
    ⟨a4, _, cuPr, _, _, a4_reach, rfl, rfl, rfl, by decide +kernel⟩⟩

/-! ## C55: the memory that clients get -/

/-- What a client has is in use, and it is what was asked for: of the configured type, in the right context, on the right
device, of the right size, aligned, resident where it should be. -/
theorem C55_memory (h : Reach E s) {x : Rsrc} {g : Grant} (hx : s.held x = some g) :
    ∃ i, s.drv.live x = some i ∧ Fits g x i := by
  obtain ⟨own, hi⟩ := h.inv
  exact hi.held x g hx

example : Reach full b3 ∧ b3.held (.gpu .ze 6016) = some (.zeAlloc zePr 64 32, { res := .success, ptr := 6016 }) :=
  ⟨b3_reach, by decide +kernel⟩

/-- Every call made to a driver, the operating system and the base allocator is one they accept: only memory in use is
freed, by the function that belongs to it, in the context it was made in. -/
theorem C55_calls_valid (h : Reach E s) {t : Tid} {th : Th} {c : Call} {k : Resp → Prog}
    (ht : s.th t = some th) (hp : th.prog = .call c k) : c.Valid s.drv.live := by
  obtain ⟨own, hi⟩ := h.inv
  obtain ⟨own0, _, hw⟩ := hi.run t th ht
  rw [hp] at hw
  exact hw.1.mono (hi.live t)

example : ∃ th q k, Reach full ((a2.begin full 0 (.cuFree cuPr 8000)).run 0 [ok 0, ok 0]) ∧
    ((a2.begin full 0 (.cuFree cuPr 8000)).run 0 [ok 0, ok 0]).th 0 = some th ∧
    th.prog = .call (.cuMemFree q) k ∧ q = 8000 := by
  refine ⟨_, _, _, ((a2_reach).begin rfl ?_).run 0, rfl, rfl, rfl⟩
  exact
    { cu := by intro p h; cases h; exact ⟨_, _, a2_held, rfl⟩
      ze := by intro p h; cases h
      cuFree := by intro p q h _; cases h; exact ⟨_, _, _, a2_mem⟩
      zeFree := by intro p q h; cases h
      params := by intro q h; cases h
      cuIdle := by intro p h; cases h
      zeIdle := by intro p h; cases h
      resident := by intro P l h; cases h }

/-- When all threads are idle, everything in use belongs to a client: nothing was leaked. Missing: a driver that refuses to
free, to change the context or to make memory resident (see `C55_resident_violated`), a missing CUDA library (see
`C56_params_violated`). -/
theorem C55_no_leak_partial (h : Reach E s) (hq : ∀ t, s.th t = none) (hc : Clean s.refused) (hE : E.cu = true)
    {x : Rsrc} {i : Info} (hx : s.drv.live x = some i) : ∃ g, s.held x = some g := by
  obtain ⟨own, hi⟩ := h.inv
  rcases hi.clean hc hE x i hx with hg | ⟨t, j, hj⟩
  · exact hg
  · rw [hi.idleOwn t (hq t) x] at hj
    cases hj

example : Reach full a2 ∧ (∀ t, a2.th t = none) ∧ Clean a2.refused ∧ full.cu = true ∧
    (a2.drv.live (.gpu .cu 8000)).isSome = true :=
  have h0 : a2.refused = [] := by decide +kernel
  ⟨a2_reach, a2_idle, fun x hx => (by rw [h0] at hx; cases hx), rfl, by decide +kernel⟩

/-- The driver refuses to make memory resident: the allocation fails, and its memory stays in use although no client has
it. -/
theorem C55_resident_violated : ∃ s p n a o e ctx d q x i,
    Reach full s ∧ (∀ t, s.th t = none) ∧ s.last 0 = some (.zeAlloc p n a, o, [(.zeMakeResident ctx d q n, e)]) ∧
    o.res ≠ .success ∧ s.refused = [(.zeMakeResident ctx d q n, e)] ∧
    s.drv.live x = some i ∧ s.held x = none ∧ x = .gpu .ze q :=
  ⟨b2, zePr, 64, 0, { res := .specific, ptr := 6000 }, 99, 9, 4, 6000, .gpu .ze 6000,
    { call := .zeMemAllocDevice 9 3 0 false 64 0, ctx := 0 }, b2_reach, b2_idle, by decide +kernel, by decide,
    by decide +kernel, by decide +kernel, by decide +kernel, rfl⟩

/-! ## C56: creation -/

/-- A provider has what its parameters say, and the parameters were acceptable. -/
theorem C56_cuda_created (h : Reach E s) {x : Rsrc} {P : Option CuParams} {o : Out}
    (hx : s.held x = some (.cuCreate P, o)) : ∃ Q p, P = some Q ∧ o.cuProv = some p ∧ CuMatches Q p := by
  obtain ⟨i, _, hf⟩ := C55_memory h hx
  exact hf

example : Reach full a1 ∧ a1.held (.ba 100) = some (.cuCreate (some cuP), { res := .success, cuProv := some cuPr }) :=
  ⟨a1_reach, a1_held⟩

theorem C56_ze_created (h : Reach E s) {x : Rsrc} {P : Option ZeParams} {o : Out}
    (hx : s.held x = some (.zeCreate P, o)) : ∃ Q p, P = some Q ∧ o.zeProv = some p ∧ ZeMatches Q p := by
  obtain ⟨i, _, Q, p, h1, h2, h3, _⟩ := C55_memory h hx
  exact ⟨Q, p, h1, h2, h3⟩

example : Reach full b1 ∧ b1.held (.ba 200) = some (.zeCreate (some zeP), { res := .success, zeProv := some zePr }) :=
  ⟨b1_reach, b1_held.1⟩

/-- Nothing undefined happens. Missing: the four cases of `Undefined`, which do happen, see the `_violated` theorems. -/
theorem C56_defined_partial (h : Reach E s) {t : Tid} {th : Th} (ht : s.th t = some th) (hp : th.prog = .ub) :
    Undefined E th.op th.refused := by
  obtain ⟨own, hi⟩ := h.inv
  obtain ⟨own0, _, hw⟩ := hi.run t th ht
  rw [hp] at hw
  exact hw

/-- A Level Zero provider with a memory type that does not exist: undefined, although nothing was refused. -/
theorem C56_type_violated : ∃ s th P, Reach full s ∧ s.th 0 = some th ∧ th.prog = .ub ∧
    th.op = .zeCreate (some P) ∧ P.type = 0 ∧ s.refused = [] :=
  ⟨c1, _, _, c1_reach, rfl, rfl, rfl, rfl, by decide +kernel⟩

/-- The driver has no memory for the query of the page size: undefined instead of an error. -/
theorem C56_probe_violated : ∃ s th, Reach full s ∧ s.th 0 = some th ∧ th.prog = .ub ∧
    th.op = .zeCreate (some zeP) ∧ s.refused = [(.zeMemAllocDevice 9 3 0 false 1 0, 0x70000002)] :=
  ⟨d1, _, d1_reach, rfl, rfl, rfl, by decide +kernel⟩

/-- A free policy without `zeMemFreeExt`: undefined, although nothing was refused. -/
theorem C56_policy_violated : ∃ s th P, Reach noExt s ∧ s.th 0 = some th ∧ th.prog = .ub ∧
    th.op = .zeCreate (some P) ∧ P.policy = 1 ∧ s.refused = [] :=
  ⟨e1, _, _, e1_reach, rfl, rfl, rfl, rfl, by decide +kernel⟩

/-- Without the CUDA library, creating parameters fails and leaks them. -/
theorem C56_params_violated : ∃ s o x i, Reach noCu s ∧ (∀ t, s.th t = none) ∧
    s.last 0 = some (.cuParamsCreate, o, []) ∧ o.res = .dependency ∧ s.drv.live x = some i ∧ s.held x = none :=
  ⟨f1, { res := .dependency }, .ba 400, { call := .baAlloc 24, ctx := 0 }, f1_reach, f1_idle, by decide +kernel, rfl,
    by decide +kernel, by decide +kernel⟩

/-! ## C57: the native error -/

/-- After a call that reported a provider specific error, the thread's native error code is the code that the driver gave
in that call. -/
theorem C57_native_code (h : Reach E s) {t : Tid} {op : Op} {o : Out} {refused : List (Call × Nat)}
    (ht : s.th t = none) (hl : s.last t = some (op, o, refused)) : NativeOk op o refused (s.tls t) := by
  obtain ⟨own, hi⟩ := h.inv
  exact hi.last t op o refused ht hl

example : Reach full a5 ∧ a5.th 0 = none ∧
    a5.last 0 = some (.cuFree cuPr 8000, { res := .specific }, [(.cuMemFree 8000, 999)]) ∧ a5.tls 0 .cu = 999 :=
  ⟨a5_reach, rfl, by decide +kernel, by decide +kernel⟩

/-- The message of CUDA is the driver's name and text of the code, cut to the buffer, after any earlier queries, and
nothing is read or written outside the buffer. -/
theorem C57_cuda_message {earlier : List (Option Msg.Bytes × Option Msg.Bytes)}
    (he : ∀ q ∈ earlier, Msg.IsStr q.1 ∧ Msg.IsStr q.2) {name text : Option Msg.Bytes}
    (hn : Msg.IsStr name) (ht : Msg.IsStr text) :
    ∃ buf buf', Msg.history earlier = some buf ∧ Msg.cuMessage buf name text = some buf' ∧
      buf'.length = 1024 ∧ Msg.Reads buf' (Msg.Message name text) := by
  obtain ⟨buf, h1, h2, h3⟩ := Msg.history_ok he
  obtain ⟨buf', h4, h5⟩ := Msg.cuMessage_ok h2 h3 hn ht
  exact ⟨buf, buf', h1, h4, h5.len, h5.reads⟩

example : Msg.IsStr (some (Msg.lit "CUDA_ERROR_INVALID_DEVICE")) ∧ Msg.IsStr none ∧
    Msg.Message (some (Msg.lit "CUDA_ERROR_INVALID_DEVICE")) none =
      Msg.lit "CUDA_ERROR_INVALID_DEVICE - cuGetErrorString() failed" := by
  refine ⟨?_, by rintro n ⟨⟩, by decide +kernel⟩
  rintro n h
  cases h
  decide +kernel

/-- The message of Level Zero is never given. -/
theorem C57_ze_message_violated : ¬ ∃ tls m, (Msg.zeQueryError tls).msg = some m := by
  rintro ⟨tls, m, h⟩
  cases h

/-! ## C58: opening a handle of another process -/

/-- A Level Zero handle is opened on the provider's context and device, with the descriptor of the exporter in the
exporter's own process, and elsewhere with a duplicate of it that is still open. -/
theorem C58_open (h : Reach E s) {t : Tid} {th : Th} {ctx dev : Nat} {d : ZeHandle} {k : Resp → Prog}
    (ht : s.th t = some th) (hp : th.prog = .call (.zeMemOpenIpcHandle ctx dev d) k) :
    ∃ p e, th.op = .zeIpcOpen p e ∧ ctx = p.ctx ∧ dev = p.dev ∧ d.rest = e.h.rest ∧
      (e.pid = s.drv.pid → d.fd = e.h.fd) ∧
      (e.pid ≠ s.drv.pid → ∃ i, s.drv.live (.fd d.fd) = some i ∧ i.call = .dupFd e.pid e.h.fd) := by
  obtain ⟨own, hi⟩ := h.inv
  obtain ⟨own0, _, hw⟩ := hi.run t th ht
  rw [hp] at hw
  exact (hw.2.1.mono (hi.live t)).2 ctx dev d rfl

example : ∃ th d k, Reach full b4 ∧ b4.th 0 = some th ∧ th.prog = .call (.zeMemOpenIpcHandle 9 3 d) k ∧
    d = { fd := 12, rest := 44 } :=
  ⟨_, _, _, b4_reach, rfl, rfl, rfl⟩

/-- Every duplicated descriptor is closed before the call returns, whatever the driver answers. -/
theorem C58_closes {p : ZeProv} {d : ZeIpc} {pre post : List (Call × Resp)} {r : Resp} {a b : Nat} {out : Option Out}
    (h : ((Op.zeIpcOpen p d).prog E).Runs (pre ++ (.dupFd a b, r) :: post) out) (hr : r.err = 0) :
    ∃ c, (.closeFd r.val, c) ∈ post := by
  suffices hs : after (fun tr _ => ∀ pre post r a b, tr = pre ++ (.dupFd a b, r) :: post → r.err = 0 →
      ∃ c, (.closeFd r.val, c) ∈ post) ((Op.zeIpcOpen p d).prog E) [] from
    after_runs hs h pre post r a b rfl hr
  have none_ : ∀ tr : List (Call × Resp), (∀ x ∈ tr, ∀ a b, x.1 ≠ .dupFd a b) →
      ∀ pre post r a b, tr = pre ++ (.dupFd a b, r) :: post → r.err = 0 → ∃ c, (.closeFd r.val, c) ∈ post := by
    rintro tr htr pre post r a b rfl
    exact absurd rfl (htr (.dupFd a b, r) (by simp) a b)
  have z : ∀ {Q : List (Call × Resp) → Option Out → Prop} {tr} {e : Nat}, (∀ o, Q tr o) →
      after Q (ze2umf e .done) tr := fun h => after_ze2umf (h _)
  simp only [Op.prog, zeIpcOpen]
  intro g
  dsimp only
  split
  · intro f
    dsimp only
    split
    · next he =>
      intro pre post r a b htr hr
      rcases pre with _ | ⟨x, _ | ⟨y, pre⟩⟩ <;> simp at htr
      obtain ⟨_, ⟨_, h2⟩, _⟩ := htr
      exact absurd (h2 ▸ hr) he
    · intro r r2
      have key : ∀ pre post r' a b, [] ++ [(Call.getpid, g)] ++ [(.dupFd d.pid d.h.fd, f)] ++
          [(.zeMemOpenIpcHandle p.ctx p.dev { d.h with fd := f.val }, r)] ++ [(.closeFd f.val, r2)] =
            pre ++ (.dupFd a b, r') :: post → r'.err = 0 → ∃ c, (.closeFd r'.val, c) ∈ post := by
        intro pre post r' a b htr _
        rcases pre with _ | ⟨x, _ | ⟨y, _ | ⟨z, _ | ⟨w, pre⟩⟩⟩⟩ <;> simp at htr
        obtain ⟨_, ⟨_, h2⟩, h3⟩ := htr
        subst h2 h3
        exact ⟨r2, by simp⟩
      dsimp only
      split
      · exact z fun _ => key
      · exact key
  · intro r
    have key := none_ ([] ++ [(Call.getpid, g)] ++ [(.zeMemOpenIpcHandle p.ctx p.dev d.h, r)]) (by simp)
    dsimp only
    split
    · exact z fun _ => key
    · exact key

example : ((Op.zeIpcOpen zePr { pid := 8, h := { fd := 33, rest := 44 } }).prog full).Runs
    ([(.getpid, ok 7)] ++ (.dupFd 8 33, ok 12) ::
      [(.zeMemOpenIpcHandle 9 3 { fd := 12, rest := 44 }, bad 5), (.closeFd 12, ok 0)])
    (some { res := .specific }) :=
  ⟨_, _, rfl, _, _, rfl, _, _, rfl, _, _, rfl, rfl, rfl⟩

/-! ## C59: what a call reports -/

/-- Success is reported only when the driver did what was asked, and the values returned are the driver's. -/
theorem C59_success {op : Op} {tr : List (Call × Resp)} {o : Out} (h : (op.prog E).Runs tr (some o))
    (hs : o.res = .success) : Done E op o tr :=
  (after_runs (run_good op) h o rfl).1 hs

/-- Every error has a cause: a refused call with the result that belongs to its code, the client's arguments, or a missing
library. -/
theorem C59_error {op : Op} {tr : List (Call × Resp)} {o : Out} (h : (op.prog E).Runs tr (some o)) :
    Explained E op o tr :=
  (after_runs (run_good op) h o rfl).2

example : ((Op.cuAlloc cuPr 64 8).prog full).Runs
    [(.cuCtxGetCurrent, ok 5), (.cuMemAlloc 64, ok 8000), (.cuCtxGetCurrent, ok 5)]
    (some { res := .success, ptr := 8000 }) :=
  ⟨_, _, rfl, _, _, rfl, _, _, rfl, rfl, rfl⟩

example : ((Op.zeFree zePr 6000).prog full).Runs [(.zeMemFree 9 6000, bad 0x78000004)]
    (some { res := .invalidArgument }) :=
  ⟨_, _, rfl, rfl, rfl⟩

/-- An allocation that fails can still store an address: memory that is not aligned as asked is freed, and its address stays in the
caller's variable. -/
theorem C55_unaligned_violated : ∃ tr o, ((Op.cuAlloc cuPr 64 8).prog full).Runs tr (some o) ∧ o.res ≠ .success ∧ o.ptr ≠ 0 ∧
    (∃ r, (.cuMemFree o.ptr, r) ∈ tr ∧ r.err = 0) ∧ ∀ x ∈ tr, x.2.err = 0 := by
  refine ⟨[(.cuCtxGetCurrent, ok 5), (.cuMemAlloc 64, ok 8004), (.cuCtxGetCurrent, ok 5), (.cuCtxGetCurrent, ok 5), (.cuMemFree 8004, ok 0),
    (.cuCtxGetCurrent, ok 5)], { res := .invalidAlignment, ptr := 8004 },
    ⟨_, _, rfl, _, _, rfl, _, _, rfl, _, _, rfl, _, _, rfl, _, _, rfl, rfl, rfl⟩, by decide, by decide, ⟨ok 0, by simp, rfl⟩, ?_⟩
  intro x hx
  simp only [List.mem_cons, List.not_mem_nil, or_false] at hx
  rcases hx with rfl | rfl | rfl | rfl | rfl | rfl <;> rfl

/-- With a driver that refuses nothing, the calls on a provider succeed, but for alignments that CUDA does not give. -/
theorem C59_works {op : Op} {tr : List (Call × Resp)} {o : Out} (h : (op.prog E).Runs tr (some o))
    (hok : ∀ x ∈ tr, x.2.err = 0)
    (ht : (∃ p, op.cuProv = some p ∧ (p.type = 1 ∨ p.type = 2 ∨ p.type = 3)) ∨
      ∃ p, op.zeProv = some p ∧ (p.type = 1 ∨ p.type = 2 ∨ p.type = 3)) :
    o.res = .success ∨ ∃ p n a, op = .cuAlloc p n a ∧ 0 < a ∧
      (p.minAlign < a ∨ ∃ c r, (c, r) ∈ tr ∧ c.makes r = some (.gpu .cu r.val) ∧ ¬ a ∣ r.val) := by
  rcases C59_error h with h1 | ⟨c, r, h1, h2, _⟩ | ⟨_, p, n, a, h1, h2⟩ | ⟨_, p, n, a, c, r, h1, h2, h3, h4, h0, h5⟩ |
    ⟨_, h1⟩ | ⟨_, h1⟩ | ⟨_, h1⟩
  · exact .inl h1
  · exact absurd (hok _ h1) h2
  · exact .inr ⟨p, n, a, h1, by omega, .inl h2⟩
  · exact .inr ⟨p, n, a, h1, by omega, .inr ⟨c, r, h2, h4, h5⟩⟩
  · rcases h1 with (rfl | ⟨P, rfl, _⟩) | rfl | ⟨P, rfl, _⟩ <;> simp [Op.cuProv, Op.zeProv] at ht
  · rcases h1 with ⟨_, rfl | ⟨P, rfl⟩⟩ | ⟨_, P, rfl⟩ <;> simp [Op.cuProv, Op.zeProv] at ht
  · rcases h1 with ⟨p, h1, h2⟩ | ⟨p, h1, h2⟩
    · rcases ht with ⟨q, h3, h4⟩ | ⟨q, h3, h4⟩
      · rw [h1] at h3
        cases h3
        exact absurd h4 h2
      · cases op <;> simp_all [Op.cuProv, Op.zeProv]
    · rcases ht with ⟨q, h3, h4⟩ | ⟨q, h3, h4⟩
      · cases op <;> simp_all [Op.cuProv, Op.zeProv]
      · rw [h1] at h3
        cases h3
        exact absurd h4 h2

end Verif.Gpu
