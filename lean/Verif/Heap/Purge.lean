import Verif.Heap.Props

/-!
What the purge callbacks of a jemalloc pool ask for and report (pool_jemalloc.c:194-223), and what the question for
the usable size answers in the three pools (pool_scalable.c, pool_jemalloc.c, pool_proxy.c:110-118).
-/

namespace Verif.Heap

/-- C63: a lazy purge of `len` bytes at offset `off` of a piece asks the provider of the pool that owns the arena for
exactly that range, asks for nothing else, and reports success (0) exactly when the provider did it. -/
theorem C63_purge_lazy {recs : Pool → Option Rec} {table : Nat → Option Pool} {p : Pool} {r : Rec} {a addr off len : Nat}
    {tls tls' : Var → Res} {l : List (Call × Resp)} {o : Out} (hr : recs p = some r) (ht : table a = some p)
    (h : Runs recs table (Hook.purgeLazy a addr off len).prog tls l (some o) tls') :
    ∃ x, l = [(.purgeLazy r.pv ((addr + off) % 2 ^ 64) len, x)] ∧ (o.val = 0 ↔ x.err = 0) := by
  obtain ⟨x, l2, rfl, h2⟩ := runs_call (byArena_runs h ht hr)
  obtain ⟨rfl, h3⟩ := runs_ret h2
  cases h3
  refine ⟨x, rfl, ?_⟩
  by_cases he : x.err = 0 <;> simp [he]

/-- C63: the same for a forced purge. -/
theorem C63_purge_forced {recs : Pool → Option Rec} {table : Nat → Option Pool} {p : Pool} {r : Rec} {a addr off len : Nat}
    {tls tls' : Var → Res} {l : List (Call × Resp)} {o : Out} (hr : recs p = some r) (ht : table a = some p)
    (h : Runs recs table (Hook.purgeForced a addr off len).prog tls l (some o) tls') :
    ∃ x, l = [(.purgeForce r.pv ((addr + off) % 2 ^ 64) len, x)] ∧ (o.val = 0 ↔ x.err = 0) := by
  obtain ⟨x, l2, rfl, h2⟩ := runs_call (byArena_runs h ht hr)
  obtain ⟨rfl, h3⟩ := runs_ret h2
  cases h3
  refine ⟨x, rfl, ?_⟩
  by_cases he : x.err = 0 <;> simp [he]

/-- The hypotheses are met: a lazy purge that the provider refuses and a forced one that it does. -/
example :
    Runs (fun _ => some ⟨.je, 8, 3⟩) (fun _ => some 200) (Hook.purgeLazy 3 0x10000 0x1000 0x2000).prog (fun _ => 0)
      [(.purgeLazy 8 0x11000 0x2000, { err := 5 })] (some { val := 1 }) (fun _ => 0) ∧
    Runs (fun _ => some ⟨.je, 8, 3⟩) (fun _ => some 200) (Hook.purgeForced 3 0x10000 0x1000 0x2000).prog (fun _ => 0)
      [(.purgeForce 8 0x11000 0x2000, {})] (some {}) (fun _ => 0) :=
  ⟨runH_sound (rs := [{ err := 5 }])
      (y := ([(.purgeLazy 8 0x11000 0x2000, { err := 5 })], some { val := 1 }, fun _ => 0)) _ rfl,
    runH_sound (rs := [{}]) (y := ([(.purgeForce 8 0x11000 0x2000, {})], some {}, fun _ => 0)) _ rfl⟩

/-- C62: the usable size of a block of a proxy pool is answered by 0 without any call, and the last error of the thread
then says that the question is not supported; the last errors of other pools stay. -/
theorem C62_usable_proxy {recs : Pool → Option Rec} {table : Nat → Option Pool} {p : Pool} {ptr : Nat}
    {tls tls' : Var → Res} {l : List (Call × Resp)} {o : Option Out}
    (h : Runs recs table (Op.usable .proxy p ptr).prog tls l o tls') :
    l = [] ∧ (∃ x, o = some x ∧ x.val = 0) ∧ tls' (.alloc .proxy) = resNotSupported ∧
    ∀ v, v ≠ .alloc .proxy → tls' v = tls v := by
  cases h with
  | setTls h =>
    cases h
    exact ⟨rfl, ⟨_, rfl, rfl⟩, by simp, fun v hv => by simp [hv]⟩

/-- C62: the usable size of a block of a scalable pool is what the library says about that block in the pool's heap;
the last errors stay. -/
theorem C62_usable_tbb {recs : Pool → Option Rec} {table : Nat → Option Pool} {p : Pool} {r : Rec} {ptr : Nat}
    {tls tls' : Var → Res} {l : List (Call × Resp)} {o : Option Out} (hr : recs p = some r)
    (h : Runs recs table (Op.usable .tbb p ptr).prog tls l o tls') :
    ∃ x y, l = [(.tbbMsize r.heap ptr, x)] ∧ o = some y ∧ y.val = x.val ∧ tls' = tls := by
  cases runs_getRec h hr with
  | call h => cases h; exact ⟨_, _, rfl, rfl, rfl, rfl⟩

/-- C62: the usable size of a block of a jemalloc pool is what the library says about that block. -/
theorem C62_usable_je {recs : Pool → Option Rec} {table : Nat → Option Pool} {p : Pool} {ptr : Nat}
    {tls tls' : Var → Res} {l : List (Call × Resp)} {o : Option Out}
    (h : Runs recs table (Op.usable .je p ptr).prog tls l o tls') :
    ∃ x y, l = [(.usable ptr, x)] ∧ o = some y ∧ y.val = x.val ∧ tls' = tls := by
  cases h with
  | call h => cases h; exact ⟨_, _, rfl, rfl, rfl, rfl⟩

/-- The hypotheses are met: the library of a scalable pool answers 48, and a proxy pool refuses. -/
example :
    Runs (fun _ => some ⟨.tbb, 8, 3⟩) (fun _ => none) (Op.usable .tbb 200 0x5000).prog (fun _ => 0)
      [(.tbbMsize 3 0x5000, { val := 48 })] (some { val := 48 }) (fun _ => 0) ∧
    Runs (fun _ => some ⟨.je, 8, 3⟩) (fun _ => some 200) (Op.usable .je 200 0x5000).prog (fun _ => 0)
      [(.usable 0x5000, { val := 48 })] (some { val := 48 }) (fun _ => 0) ∧
    Runs (fun _ => some ⟨.proxy, 8, 0⟩) (fun _ => none) (Op.usable .proxy 200 0x5000).prog (fun _ => 0)
      [] (some { val := 0 }) (Function.update (fun _ => 0) (.alloc .proxy) resNotSupported) :=
  ⟨runH_sound (rs := [{ val := 48 }]) (y := ([(.tbbMsize 3 0x5000, { val := 48 })], some { val := 48 }, fun _ => 0)) _ rfl,
    runH_sound (rs := [{ val := 48 }]) (y := ([(.usable 0x5000, { val := 48 })], some { val := 48 }, fun _ => 0)) _ rfl,
    .setTls .ret⟩

end Verif.Heap
