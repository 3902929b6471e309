import Verif.Ctl.Lemmas
/-!
# Control names (C38)
-/
namespace Verif.Ctl
variable {H : Type}

/-- C38. A name that leads to a leaf with a function for this kind of query runs exactly this function, once, with the
argument of the caller, and the result is that of the function. Missing: the values of the indexes in the name. -/
theorem C38_leaf_partial {run : Call H → Int} {glob : List (Node H)} {ctl : Option (List (Node H))} {name nm : List Char}
    {cb : QType → Option H} {proto : List Field} (hr : Resolves glob (parts '.' name) (.leaf nm cb proto) []) {t : QType}
    {h : H} (hcb : cb t = some h) (p : Nat) :
    ∃ out ix, query run glob ctl (.program (some p)) name t = some out ∧
      out.calls = [⟨h, .ptr p, ix, none, none⟩] ∧ out.ret = run ⟨h, .ptr p, ix, none, none⟩ := by
  obtain ⟨o, ix, h1, _⟩ := findNode_resolves hr
  have ha : realArg t (.program (some p)) proto = some (.ptr p) := by cases t <;> rfl
  unfold query
  rw [h1]
  simp only [exec, hcb, ha]
  exact ⟨_, some [], rfl, rfl, rfl⟩

/-- C38. A name that leads to a subtree runs its function exactly once, with the argument of the caller, the kind of the
query and the rest of the name, and the result is that of the function. -/
theorem C38_subtree {run : Call H → Int} {glob : List (Node H)} {ctl : Option (List (Node H))} {name nm : List Char}
    {h : H} {rest : List (List Char)} (hr : Resolves glob (parts '.' name) (.subtree nm (some h)) rest) (hne : rest ≠ [])
    (t : QType) (p : Nat) :
    ∃ out ix extra, query run glob ctl (.program (some p)) name t = some out ∧ IsRest name extra rest ∧
      out.calls = [⟨h, .ptr p, ix, some extra, some t⟩] ∧ out.ret = run ⟨h, .ptr p, ix, some extra, some t⟩ := by
  obtain ⟨o, ix, h1, h2, _⟩ := findNode_resolves hr
  unfold query
  rw [h1]
  exact ⟨_, some [], _, rfl, h2 hne, rfl, rfl⟩

/-- C38. A name that leads to no node, or to a node without a function for this kind of query, gives an error and runs
nothing. -/
theorem C38_unknown {run : Call H → Int} {glob : List (Node H)} {name : List Char} {t : QType} (src : Source)
    (hm : Missing glob (parts '.' name) ∨ ∃ n rest, Resolves glob (parts '.' name) n rest ∧
      ((∃ nm cs, n = .named nm cs ∨ n = .indexed nm cs) ∨ (∃ nm cb proto, n = .leaf nm cb proto ∧ cb t = none) ∨
        ∃ nm, n = .subtree nm none)) :
    ∃ out, query run glob none src name t = some out ∧ out.ret = -1 ∧ out.calls = [] := by
  unfold query
  rcases hm with hm | ⟨n, rest, hr, hn⟩
  · obtain ⟨ix, h1⟩ := findNode_missing hm
    rw [h1]
    exact ⟨_, rfl, rfl, rfl⟩
  · obtain ⟨o, ix, h1, _⟩ := findNode_resolves hr
    rw [h1]
    rcases hn with ⟨nm, cs, rfl | rfl⟩ | ⟨nm, cb, proto, rfl, hcb⟩ | ⟨nm, rfl⟩
    · exact ⟨_, rfl, rfl, rfl⟩
    · exact ⟨_, rfl, rfl, rfl⟩
    · refine ⟨_, rfl, ?_, ?_⟩ <;> simp [exec, hcb]
    · exact ⟨_, rfl, rfl, rfl⟩

/-- C38. With a tree of its own, a name without a node in the global tree is looked up there. -/
theorem C38_local {run : Call H → Int} {glob root : List (Node H)} {name : List Char} {t : QType} (p : Nat)
    (hm : Missing glob (parts '.' name)) :
    (∀ {nm cb proto h}, Resolves root (parts '.' name) (.leaf nm cb proto) [] → cb t = some h →
      ∃ out ix, query run glob (some root) (.program (some p)) name t = some out ∧
        out.calls = [⟨h, .ptr p, ix, none, none⟩] ∧ out.ret = run ⟨h, .ptr p, ix, none, none⟩) ∧
    ((Missing root (parts '.' name) ∨
        ∃ nm cb proto, Resolves root (parts '.' name) (.leaf nm cb proto) [] ∧ cb t = none) →
      ∃ out, query run glob (some root) (.program (some p)) name t = some out ∧ out.ret = -1 ∧ out.calls = []) := by
  obtain ⟨ix, h1⟩ := findNode_missing hm
  unfold query
  rw [h1]
  dsimp only
  constructor
  · intro nm cb proto h hr hcb
    obtain ⟨o, ix', h2, _⟩ := findNode_resolves hr
    have ha : realArg t (.program (some p)) proto = some (.ptr p) := by cases t <;> rfl
    rw [h2]
    simp only [exec, hcb, ha]
    exact ⟨_, none, rfl, rfl, rfl⟩
  · rintro (hm' | ⟨nm, cb, proto, hr, hcb⟩)
    · obtain ⟨ix', h2⟩ := findNode_missing hm'
      rw [h2]
      exact ⟨_, rfl, rfl, rfl⟩
    · obtain ⟨o, ix', h2, _⟩ := findNode_resolves hr
      rw [h2]
      refine ⟨_, rfl, ?_, ?_⟩ <;> simp [exec, hcb]

/-- C38. The functions of the API refuse null pointers, report failure exactly if the function that was run failed or if
there is none. -/
theorem C38_api {run : Call H → Int} {glob : List (Node H)} {t : QType} :
    (∀ name ctxNull arg, name = none ∨ ctxNull = true ∨ arg = none →
      umfCtl run glob t name ctxNull arg = some (.invalid, [])) ∧
    (∀ name p out, query run glob none (.program (some p)) name t = some out →
      umfCtl run glob t (some name) false (some p) = some (if out.ret = 0 then .success else .unknown, out.calls)) := by
  constructor
  · intro name ctxNull arg h
    unfold umfCtl
    split
    · rcases h with h | h | h
      · cases h
      · rw [h]; rfl
      · cases h
    · rfl
  · intro name p out h
    unfold umfCtl
    simp only [Bool.false_eq_true, if_false, h, Option.map_some, ne_eq, ite_not]

/-- C38 is false for names that go on after a leaf: a null pointer is read. -/
theorem C38_tooLong_violated (run : Call H → Int) {glob : List (Node H)} (ctl : Option (List (Node H))) {name : List Char}
    (h : TooLong glob (parts '.' name)) (src : Source) (t : QType) : query run glob ctl src name t = none := by
  unfold query
  rw [findNode_tooLong h]

theorem exec_indexes {run : Call H → Int} {found : Option (Node H × Nat)} {ix : Option (List Index)} {src : Source}
    {name : List Char} {t : QType} {l : List Index} : ∀ c ∈ (exec run found ix src name t l).calls, c.indexes = ix := by
  unfold exec
  split
  · split
    · simp
    · split <;> simp
  · simp
  · simp

/-- C38 is false for indexes: whatever the name is, no function gets the value of an index. -/
theorem C38_indexes_violated {run : Call H → Int} {glob : List (Node H)} {ctl : Option (List (Node H))} {src : Source}
    {name : List Char} {t : QType} {out : Out H} (h : query run glob ctl src name t = some out) :
    ∀ c ∈ out.calls, c.indexes = none ∨ c.indexes = some [] := by
  unfold query at h
  split at h
  · cases h
  · cases h
    exact fun c hc => .inr (exec_indexes c hc)
  · split at h
    · cases h
      exact fun c hc => .inr (exec_indexes c hc)
    · split at h
      · cases h
      · cases h
        exact fun c hc => .inl (exec_indexes c hc)

/-! ## The trees of the library -/

theorem selects_head {n : Node H} {l : List (Node H)} {seg : List Char} (h : Fits n seg) : Selects (n :: l) seg n :=
  ⟨[], l, rfl, h, by simp⟩

theorem selects_tail {n m : Node H} {l : List (Node H)} {seg : List Char} (h : ¬ Fits m seg) (h' : Selects l seg n) :
    Selects (m :: l) seg n := by
  obtain ⟨a, b, rfl, h1, h2⟩ := h'
  refine ⟨m :: a, b, rfl, h1, ?_⟩
  intro x hx
  rcases List.mem_cons.1 hx with rfl | hx
  · exact h
  · exact h2 x hx

/-- The first parts of the name of a provider's or a pool's settings. -/
def providerName : List (List Char) := ["umf".toList, "provider".toList, "by_handle".toList]
def poolName : List (List Char) := ["umf".toList, "pool".toList, "by_handle".toList]

theorem resolves_provider {rest : List (List Char)} (h : rest ≠ []) :
    Resolves globalTree (providerName ++ rest) (.subtree "by_handle".toList (some .byHandleProvider)) rest :=
  .named (selects_head rfl) (.named (selects_head rfl) (.subtree (selects_head rfl) h))

theorem resolves_pool {rest : List (List Char)} (h : rest ≠ []) :
    Resolves globalTree (poolName ++ rest) (.subtree "by_handle".toList (some .byHandlePool)) rest :=
  .named (selects_head rfl) (.named (selects_tail (by unfold Fits; decide) (selects_head rfl)) (.subtree (selects_head rfl) h))

theorem effects_one {f : Call Handler → Option (Int × List Effect)} {c : Call Handler} {r : Int × List Effect}
    (h : f c = some r) : effects f [c] = some r.2 := by
  simp [effects, h]

theorem umfCtlFull_sub {op : Ctx → CtlOp} {t : QType} {name nm : List Char} {ctx : Ctx} {h : Handler}
    {rest : List (List Char)} (hr : Resolves globalTree (parts '.' name) (.subtree nm (some h)) rest) (hne : rest ≠ [])
    (arg : Nat) : ∃ ix extra, IsRest name extra rest ∧ extra.length ≤ name.length ∧
      ∀ r es, runHandler op (name.length + 2) ctx ⟨h, .ptr arg, ix, some extra, some t⟩ = some (r, es) →
        umfCtlFull op t name ctx arg = some (if r = 0 then .success else .unknown, es) := by
  obtain ⟨out, ix, extra, h1, h2, h3, h4⟩ := C38_subtree (run := result (runHandler op (name.length + 2) ctx))
    (ctl := none) hr hne t arg
  refine ⟨ix, extra, h2, ?_, ?_⟩
  · obtain ⟨⟨pre, e, _⟩, _⟩ := h2
    rw [e]
    simp
  · intro r es hrun
    unfold umfCtlFull
    dsimp only
    rw [C38_api.2 name arg out h1, h3]
    dsimp only
    rw [effects_one hrun, h4]
    simp [result, hrun]

/-- C38. The settings of a provider or a pool whose operations have a `ctl` function: it is called exactly once, with the rest
of the name, the argument and the kind of the query. -/
theorem C38_custom {op : Ctx → CtlOp} {t : QType} {name : List Char} {rest : List (List Char)} (hne : rest ≠ [])
    (id arg : Nat) :
    (∀ ret, op (.provider id) = .custom ret → parts '.' name = providerName ++ rest → ∃ r extra, IsRest name extra rest ∧
      umfCtlFull op t name (.provider id) arg = some (r, [.custom (.provider id) extra (.ptr arg) t])) ∧
    (∀ ret, op (.pool id) = .custom ret → parts '.' name = poolName ++ rest → ∃ r extra, IsRest name extra rest ∧
      umfCtlFull op t name (.pool id) arg = some (r, [.custom (.pool id) extra (.ptr arg) t])) := by
  constructor
  · intro ret hop hp
    obtain ⟨ix, extra, h1, _, h2⟩ := umfCtlFull_sub (op := op) (t := t) (ctx := .provider id)
      (hp ▸ resolves_provider hne) hne arg
    exact ⟨_, extra, h1, h2 _ _ (by simp only [runHandler, hop]; rfl)⟩
  · intro ret hop hp
    obtain ⟨ix, extra, h1, _, h2⟩ := umfCtlFull_sub (op := op) (t := t) (ctx := .pool id)
      (hp ▸ resolves_pool hne) hne arg
    exact ⟨_, extra, h1, h2 _ _ (by simp only [runHandler, hop]; rfl)⟩

theorem missing_global {rest : List (List Char)} (h : rest.head? ≠ some "umf".toList) : Missing globalTree rest := by
  cases rest with
  | nil => exact .empty
  | cons a l =>
    refine .here ?_
    intro n hn hf
    simp only [globalTree, List.mem_singleton] at hn
    subst hn
    exact h (by rw [show a = "umf".toList from hf.symm]; rfl)

theorem subQuery_leaf {f : Call Handler → Option (Int × List Effect)} {tree : List (Node Handler)} {name nm : List Char}
    {cb : QType → Option Handler} {proto : List Field} {t : QType} {h : Handler} (arg : Nat)
    (hu : (parts '.' name).head? ≠ some "umf".toList)
    (hr : Resolves tree (parts '.' name) (.leaf nm cb proto) []) (hcb : cb t = some h) {es : List Effect}
    (hf : ∀ ix, f ⟨h, .ptr arg, ix, none, none⟩ = some (0, es)) : subQuery f tree (.ptr arg) name t = some (0, es) := by
  obtain ⟨out, ix, h1, h2, h3⟩ := (C38_local (run := result f) (t := t) arg (missing_global hu)).1 hr hcb
  unfold subQuery
  simp only [Arg.toPtr]
  rw [h1]
  dsimp only
  rw [h2, effects_one (hf ix)]
  rfl

theorem subQuery_missing {f : Call Handler → Option (Int × List Effect)} {tree : List (Node Handler)} {name : List Char}
    {t : QType} (arg : Nat) (hu : (parts '.' name).head? ≠ some "umf".toList)
    (hm : Missing tree (parts '.' name) ∨
        ∃ nm cb proto, Resolves tree (parts '.' name) (.leaf nm cb proto) [] ∧ cb t = none) :
    subQuery f tree (.ptr arg) name t = some (0, []) := by
  obtain ⟨out, h1, h2, h3⟩ := (C38_local (run := result f) (t := t) arg (missing_global hu)).2 hm
  unfold subQuery
  simp only [Arg.toPtr]
  rw [h1]
  dsimp only
  rw [h3]
  rfl

/-- A handler of an OS provider does its work on this provider. -/
theorem run_os {op : Ctx → CtlOp} {fuel id : Nat} {h : Handler} {arg : Arg} {ix : Option (List Index)}
    (hh : h = .ipcEnabled ∨ h = .peakMemory ∨ h = .allocatedMemory ∨ h = .reset) :
    runHandler op (fuel + 1) (.osPriv id) ⟨h, arg, ix, none, none⟩ = some (0, [.handled h (.osPriv id) arg]) := by
  rcases hh with rfl | rfl | rfl | rfl <;> rfl

/-- The settings of an OS provider: the rest of the name, the kind of query, and what is run. -/
def osSettings : List (List (List Char) × QType × Handler) :=
  [(["params".toList, "ipc_enabled".toList], .read, .ipcEnabled),
   (["stats".toList, "allocated_memory".toList], .read, .allocatedMemory),
   (["stats".toList, "peak_memory".toList], .read, .peakMemory),
   (["stats".toList, "reset".toList], .run, .reset)]

/-- C38. The settings of an OS provider: exactly the function of the setting is run on this provider, once, with the argument
of the caller. -/
theorem C38_os {op : Ctx → CtlOp} {id : Nat} (hop : op (.provider id) = .os) {rest : List (List Char)} {t : QType}
    {h : Handler} (hs : (rest, t, h) ∈ osSettings) {name : List Char} (hp : parts '.' name = providerName ++ rest)
    (arg : Nat) :
    umfCtlFull op t name (.provider id) arg = some (.success, [.handled h (.osPriv id) (.ptr arg)]) := by
  have key : rest ≠ [] ∧ rest.head? ≠ some "umf".toList ∧
      (h = .ipcEnabled ∨ h = .peakMemory ∨ h = .allocatedMemory ∨ h = .reset) ∧
      ∃ nm cb proto, Resolves osTree rest (.leaf nm cb proto) [] ∧ cb t = some h := by
    simp only [osSettings, List.mem_cons, Prod.mk.injEq, List.not_mem_nil, or_false] at hs
    rcases hs with ⟨rfl, rfl, rfl⟩ | ⟨rfl, rfl, rfl⟩ | ⟨rfl, rfl, rfl⟩ | ⟨rfl, rfl, rfl⟩
    · exact ⟨by simp, by decide, by simp, _, _, _, .named (selects_head rfl) (.last (selects_head rfl)), rfl⟩
    · exact ⟨by simp, by decide, by simp, _, _, _, .named (selects_tail (by unfold Fits; decide) (selects_head rfl))
        (.last (selects_head rfl)), rfl⟩
    · exact ⟨by simp, by decide, by simp, _, _, _, .named (selects_tail (by unfold Fits; decide) (selects_head rfl))
        (.last (selects_tail (by unfold Fits leafRo; decide) (selects_head rfl))), rfl⟩
    · exact ⟨by simp, by decide, by simp, _, _, _, .named (selects_tail (by unfold Fits; decide) (selects_head rfl))
        (.last (selects_tail (by unfold Fits leafRo; decide) (selects_tail (by unfold Fits leafRo; decide)
          (selects_head rfl)))), rfl⟩
  obtain ⟨hne, hu, hh, nm, cb, proto, hr, hcb⟩ := key
  obtain ⟨ix, extra, ⟨h1, h2, h3⟩, _, h4⟩ := umfCtlFull_sub (op := op) (t := t) (ctx := .provider id)
    (hp ▸ resolves_provider hne) hne arg
  refine h4 0 _ ?_
  simp only [runHandler, hop]
  exact subQuery_leaf arg (by rw [h2]; exact hu) (by rw [h2]; exact hr) hcb (fun _ => run_os hh)

/-- C38. The setting of a scalable pool. -/
theorem C38_scalable {op : Ctx → CtlOp} {id : Nat} (hop : op (.pool id) = .scalable) {name : List Char}
    (hp : parts '.' name = poolName ++ ["params".toList, "tracking_enabled".toList]) (arg : Nat) :
    umfCtlFull op .read name (.pool id) arg = some (.success, [.handled .trackingEnabled (.pool id) (.ptr arg)]) := by
  obtain ⟨ix, extra, ⟨h1, h2, h3⟩, _, h4⟩ := umfCtlFull_sub (op := op) (t := .read) (ctx := .pool id)
    (hp ▸ resolves_pool (by simp)) (by simp) arg
  refine h4 0 _ ?_
  simp only [runHandler, hop]
  exact subQuery_leaf arg (by rw [h2]; decide)
    (by rw [h2]; exact .named (selects_head rfl) (.last (selects_head rfl))) rfl (fun _ => rfl)

/-- C38 is false for errors of settings: a setting that an OS provider does not have, a setting that cannot be changed, the
failure of a `ctl` function of the user, and a provider without such a function, all give success. -/
theorem C38_ignored_violated {op : Ctx → CtlOp} {t : QType} {name : List Char} {rest : List (List Char)} (hne : rest ≠ [])
    (hp : parts '.' name = providerName ++ rest) (id arg : Nat) :
    (op (.provider id) = .os → rest.head? ≠ some "umf".toList → (Missing osTree rest ∨
        ∃ nm cb proto, Resolves osTree rest (.leaf nm cb proto) [] ∧ cb t = none) →
      umfCtlFull op t name (.provider id) arg = some (.success, [])) ∧
    (op (.provider id) = .none → umfCtlFull op t name (.provider id) arg = some (.success, [])) ∧
    (∀ ret, op (.provider id) = .custom ret → ∃ es, umfCtlFull op t name (.provider id) arg = some (.success, es)) := by
  obtain ⟨ix, extra, ⟨h1, h2, h3⟩, _, h4⟩ := umfCtlFull_sub (op := op) (t := t) (ctx := .provider id)
    (hp ▸ resolves_provider hne) hne arg
  refine ⟨?_, ?_, ?_⟩
  · intro hop hu hm
    refine h4 0 _ ?_
    simp only [runHandler, hop]
    exact subQuery_missing arg (by rw [h2]; exact hu) (by rw [h2]; exact hm)
  · intro hop
    refine h4 0 _ ?_
    simp only [runHandler, hop]
    rfl
  · intro ret hop
    refine ⟨[.custom (.provider id) extra (.ptr arg) t], h4 0 _ ?_⟩
    simp only [runHandler, hop]
    rfl

/-- C38 is false for names that repeat the first parts: the function for provider handles is run with the private data of the
OS provider as its handle. -/
theorem C38_nested_violated {op : Ctx → CtlOp} {id : Nat} (hop : op (.provider id) = .os) (t : QType)
    (arg : Nat) : umfCtlFull op t "umf.provider.by_handle.umf.provider.by_handle.x".toList (.provider id) arg = none := by
  have hp : parts '.' "umf.provider.by_handle.umf.provider.by_handle.x".toList =
      providerName ++ (providerName ++ [['x']]) := by decide +kernel
  obtain ⟨out, ix, extra, h1, ⟨_, h2, _⟩, h3, h4⟩ := C38_subtree
    (run := result (runHandler op ("umf.provider.by_handle.umf.provider.by_handle.x".toList.length + 2) (.provider id)))
    (ctl := none) (hp ▸ resolves_provider (by simp [providerName])) (by simp [providerName]) t arg
  unfold umfCtlFull
  dsimp only
  rw [C38_api.2 _ arg out h1, h3]
  dsimp only
  have hnone : ∀ fuel, runHandler op (fuel + 2) (.provider id) ⟨.byHandleProvider, .ptr arg, ix, some extra, some t⟩ = none := by
    intro fuel
    rw [runHandler.eq_def]
    simp only [hop]
    obtain ⟨out', ix', extra', g1, _, g3, _⟩ := C38_subtree (run := result (runHandler op (fuel + 1) (.osPriv id)))
      (ctl := some osTree) (h2 ▸ resolves_provider (rest := [['x']]) (by simp)) (by simp) t arg
    unfold subQuery
    simp only [Arg.toPtr]
    rw [g1]
    dsimp only
    rw [g3]
    rfl
  simp only [effects, List.foldl_cons, List.foldl_nil, Option.bind_some, hnone, Option.map_none]

/-! ## Concrete cases -/

/-- Names may have any number of dots between their parts. -/
example (op : Ctx → CtlOp) (hop : op (.provider 3) = .os) :
    umfCtlFull op .read "umf.provider..by_handle.stats.peak_memory".toList (.provider 3) 9 =
      some (.success, [.handled .peakMemory (.osPriv 3) (.ptr 9)]) :=
  C38_os hop (rest := ["stats".toList, "peak_memory".toList]) (by simp [osSettings]) (by decide +kernel) 9

/-- An unknown setting. -/
example (op : Ctx → CtlOp) (hop : op (.provider 3) = .os) :
    umfCtlFull op .read "umf.provider.by_handle.stats.none".toList (.provider 3) 9 = some (.success, []) :=
  (C38_ignored_violated (rest := ["stats".toList, "none".toList]) (by simp) (by decide +kernel) 3 9).1 hop (by decide)
    (.inl (.named (selects_tail (by unfold Fits; decide) (selects_head rfl)) (by simp)
      (.here (by simp [leafRo, leafRun, Fits]))))

/-- A tree with an indexed node; the name has an index. -/
example (run : Call Nat → Int) : ∃ out ix, query run
      [.named "a".toList [.leaf "b".toList (fun _ => none) [], .indexed "i".toList [.leaf "x".toList (fun _ => some 5) []]]] none
      (.program (some 1)) "a.7.x".toList .write = some out ∧
    out.calls = [⟨5, .ptr 1, ix, none, none⟩] ∧ out.ret = run ⟨5, .ptr 1, ix, none, none⟩ := by
  have hp : parts '.' "a.7.x".toList = ["a".toList, "7".toList, "x".toList] := by decide +kernel
  refine C38_leaf_partial (nm := "x".toList) (cb := fun _ => some 5) (proto := []) ?_ rfl 1
  rw [hp]
  exact .named (selects_head rfl) (.indexed (selects_tail (by unfold Fits; decide)
    (selects_head (.inr ⟨[], [], '7', [], rfl, by simp, .inl rfl, by decide, by decide⟩))) (.last (selects_head rfl)))

/-- A name that goes on after a leaf. -/
example : TooLong osTree (parts '.' "stats.reset.now".toList) := by
  have hp : parts '.' "stats.reset.now".toList = ["stats".toList, "reset".toList, "now".toList] := by decide +kernel
  rw [hp]
  exact .named (selects_tail (by unfold Fits; decide) (selects_head rfl))
    (.leaf (selects_tail (by unfold Fits leafRo; decide) (selects_tail (by unfold Fits leafRo; decide)
      (selects_head rfl))) (by simp))

end Verif.Ctl
