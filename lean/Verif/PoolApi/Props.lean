import Verif.PoolApi.Spec
import Mathlib.Data.List.Induction
/-! # C86: a pool keeps the functions, the private data and the provider it was created with -/
namespace Verif.PoolApi
variable {F : Type}

theorem upd_eq {α : Type} (f : Nat → α) (a : Nat) (x : α) : upd f a x a = x := by simp [upd]
theorem upd_ne {α : Type} (f : Nat → α) {a b : Nat} (x : α) (h : b ≠ a) : upd f a x b = f b := by simp [upd, h]

theorem tableAt_snoc (tab : Nat → Ops F) (t : Nat) (es : List (Ev F)) (e : Ev F) :
    tableAt tab t (es ++ [e]) = (match e with | .write t' o => if t' = t then o else tableAt tab t es | _ => tableAt tab t es) := by
  induction es generalizing tab with
  | nil => cases e <;> simp [tableAt]
  | cons f es ih =>
    cases f <;> (try (simp only [List.cons_append, tableAt, ih]; done))
    simp only [List.cons_append, tableAt, ih]
    cases e <;> simp only
    · split <;> split <;> rfl

/-! Each event: what it can do to a pool and to the tracking provider below. -/

/-- The tables are changed by writes only. -/
theorem step_tab {w : World F} {e : Ev F} {r} (h : step w e = some r) (t : Nat) :
    r.1.tab t = (match e with | .write t' o => if t' = t then o else w.tab t | _ => w.tab t) := by
  cases e with
  | write t' o =>
    simp only [step, Option.some.injEq] at h
    subst h
    simp only [upd]
    by_cases c : t = t'
    · simp [c]
    · simp [c, Ne.symm c]
  | createBegin t' p ps tr own out a =>
    simp only [step, createBegin] at h
    repeat' split at h
    all_goals first | (cases h; done) | (cases h; rfl)
  | createEnd h' ans =>
    simp only [step, createEnd] at h
    repeat' split at h
    all_goals first | (cases h; done) | (cases h; rfl)
  | call h' op ans =>
    simp only [step, call] at h
    repeat' split at h
    all_goals first | (cases h; done) | (cases h; rfl)
  | ctl h' n a q =>
    simp only [step, ctl] at h
    repeat' split at h
    all_goals first | (cases h; done) | (cases h; rfl)
  | getProvider h' out =>
    simp only [step, getProvider] at h
    split at h
    · cases h; rfl
    · split at h
      · cases h
      · obtain ⟨p, _, rfl⟩ := Option.map_eq_some_iff.1 h
        rfl
  | destroy h' =>
    simp only [step, destroy] at h
    repeat' split at h
    all_goals first | (cases h; done) | (cases h; rfl)

theorem run_tab {tab : Nat → Ops F} {es : List (Ev F)} {w : World F} (h : Run tab es w) (t : Nat) : w.tab t = tableAt tab t es := by
  induction h with
  | nil => rfl
  | snoc _ _ hs ih =>
    rename_i e _ _ _
    rw [step_tab hs, tableAt_snoc, ih]
    cases e <;> rfl

/-- Tracked pools have tracking providers of their own. -/
structure Inv (w : World F) : Prop where
  has : ∀ h o, w.pools h = some o → o.tracked = true → ∃ u, w.wrap o.provider = some u
  alone : ∀ h o h' o', w.pools h = some o → w.pools h' = some o' → o.tracked = true → o'.tracked = true →
    o.provider = o'.provider → h = h'
  nonzero : w.pools 0 = none

theorem Inv.init (tab : Nat → Ops F) : Inv (World.init tab) :=
  ⟨fun _ _ h => by simp [World.init] at h, fun _ _ _ _ h => by simp [World.init] at h, rfl⟩

/-- The first part of a creation, when it gets to the call of `initialize`. -/
theorem begin_cases {w : World F} {t p ps : Nat} {tr own out : Bool} {a : Ans} {r}
    (h : createBegin w t p ps tr own out a = some r) :
    r.1 = w ∨ ∃ x q f, a.mem = some x ∧ (if tr then a.wrapper else .ok p) = .ok q ∧ (w.tab t).init = some f ∧
      r = (⟨w.tab, upd w.pools x (some (fill (w.tab t) q tr own)), if tr then upd w.wrap q (some p) else w.wrap⟩,
        [.call f [q, ps]], .pending) := by
  unfold createBegin at h
  split at h
  · cases h; left; rfl
  split at h
  · cases h; left; rfl
  rename_i x hx
  split at h
  · cases h; left; rfl
  rename_i q hq
  split at h
  · cases h; left; rfl
  split at h
  · cases h
  rename_i f hf
  cases h
  exact .inr ⟨x, q, f, hx, hq, hf, rfl⟩

theorem call_world {w : World F} {h op ans r} (e : call w h op ans = some r) : r.1 = w := by
  unfold call at e
  repeat' split at e
  all_goals first | (cases e; done) | (cases e; rfl)

theorem ctl_world {w : World F} {h n a q r} (e : ctl w h n a q = some r) : r.1 = w := by
  unfold ctl at e
  repeat' split at e
  all_goals first | (cases e; done) | (cases e; rfl)

theorem getProvider_world {w : World F} {h out r} (e : getProvider w h out = some r) : r.1 = w := by
  unfold getProvider at e
  split at e
  · cases e; rfl
  · split at e
    · cases e
    · obtain ⟨p, _, rfl⟩ := Option.map_eq_some_iff.1 e
      rfl

/-- A pool is taken away, with its tracking provider. -/
theorem Inv.remove {w : World F} (i : Inv w) {h : Nat} {o : Obj F} (ho : w.pools h = some o) :
    Inv ⟨w.tab, upd w.pools h none, if o.tracked then upd w.wrap o.provider none else w.wrap⟩ := by
  have back : ∀ k q, upd w.pools h none k = some q → k ≠ h ∧ w.pools k = some q := by
    intro k q hk
    by_cases c : k = h
    · rw [c, upd_eq] at hk; cases hk
    · rw [upd_ne _ _ c] at hk; exact ⟨c, hk⟩
  refine ⟨?_, ?_, ?_⟩
  · intro k q hk ht
    obtain ⟨c, hk⟩ := back k q hk
    obtain ⟨u, hu⟩ := i.has k q hk ht
    refine ⟨u, ?_⟩
    dsimp only
    split
    · rename_i hto
      rw [upd_ne, hu]
      intro e
      exact c (i.alone k q h o hk ho ht hto e)
    · exact hu
  · intro k q k' q' hk hk'
    exact i.alone k q k' q' (back k q hk).2 (back k' q' hk').2
  · by_cases c : 0 = h
    · dsimp only; rw [← c, upd_eq]
    · dsimp only; rw [upd_ne _ _ c]; exact i.nonzero

theorem Inv.step {w : World F} (i : Inv w) {e : Ev F} (hf : e.Fair w) {r} (h : step w e = some r) : Inv r.1 := by
  cases e with
  | write t o =>
    simp only [PoolApi.step, Option.some.injEq] at h
    subst h
    exact ⟨i.has, i.alone, i.nonzero⟩
  | createBegin t p ps tr own out a =>
    rcases begin_cases h with h1 | ⟨x, q, f, hx, hq, hi, rfl⟩
    · rw [h1]; exact i
    · obtain ⟨h0, hn⟩ := hf.1 x hx
      have back : ∀ k o, upd w.pools x (some (fill (w.tab t) q tr own)) k = some o →
          (k = x ∧ o = fill (w.tab t) q tr own) ∨ (k ≠ x ∧ w.pools k = some o) := by
        intro k o hk
        by_cases c : k = x
        · rw [c, upd_eq] at hk; cases hk; exact .inl ⟨c, rfl⟩
        · rw [upd_ne _ _ c] at hk; exact .inr ⟨c, hk⟩
      have fresh : tr = true → w.wrap q = none := by
        intro ht
        rw [if_pos ht] at hq
        exact (hf.2 q hq).1
      refine ⟨?_, ?_, ?_⟩
      · intro k o hk ht
        rcases back k o hk with ⟨_, rfl⟩ | ⟨_, hk⟩
        · have ht' : tr = true := ht
          refine ⟨p, ?_⟩
          dsimp only
          rw [if_pos ht']
          exact upd_eq _ _ _
        · obtain ⟨u, hu⟩ := i.has k o hk ht
          refine ⟨u, ?_⟩
          dsimp only
          split
          · rename_i ht'
            rw [upd_ne _ _ (by rintro e; rw [e, fresh ht'] at hu; cases hu)]
            exact hu
          · exact hu
      · intro k o k' o' hk hk' ht ht' he
        rcases back k o hk with ⟨e1, rfl⟩ | ⟨_, hk⟩ <;> rcases back k' o' hk' with ⟨e2, rfl⟩ | ⟨_, hk'⟩
        · rw [e1, e2]
        · obtain ⟨u, hu⟩ := i.has k' o' hk' ht'
          rw [← he] at hu
          rw [show (fill (w.tab t) q tr own).provider = q from rfl, fresh ht] at hu
          cases hu
        · obtain ⟨u, hu⟩ := i.has k o hk ht
          rw [he] at hu
          rw [show (fill (w.tab t) q tr own).provider = q from rfl, fresh ht'] at hu
          cases hu
        · exact i.alone k o k' o' hk hk' ht ht' he
      · dsimp only
        rw [upd_ne _ _ (Ne.symm h0)]
        exact i.nonzero
  | createEnd h' ans =>
    simp only [PoolApi.step, createEnd] at h
    split at h
    · cases h
    rename_i o ho
    split at h
    · rename_i priv
      cases h
      have back : ∀ k q, upd w.pools h' (some { o with priv := some priv }) k = some q →
          ∃ q', w.pools k = some q' ∧ q'.tracked = q.tracked ∧ q'.provider = q.provider := by
        intro k q hk
        by_cases c : k = h'
        · rw [c, upd_eq] at hk
          cases hk
          exact ⟨o, c ▸ ho, rfl, rfl⟩
        · rw [upd_ne _ _ c] at hk
          exact ⟨q, hk, rfl, rfl⟩
      refine ⟨?_, ?_, ?_⟩
      · intro k q hk ht
        obtain ⟨q', h1, h2, h3⟩ := back k q hk
        rw [← h3]
        exact i.has k q' h1 (h2.trans ht)
      · intro k q k' q' hk hk' ht ht' he
        obtain ⟨p, h1, h2, h3⟩ := back k q hk
        obtain ⟨p', h4, h5, h6⟩ := back k' q' hk'
        exact i.alone k p k' p' h1 h4 (h2.trans ht) (h5.trans ht') (by rw [h3, h6, he])
      · dsimp only
        by_cases c : 0 = h'
        · rw [← c, i.nonzero] at ho; cases ho
        · rw [upd_ne _ _ c]; exact i.nonzero
    · cases h
      exact i.remove ho
  | call h' op ans => rw [call_world h]; exact i
  | ctl h' n a q => rw [ctl_world h]; exact i
  | getProvider h' out => rw [getProvider_world h]; exact i
  | destroy h' =>
    simp only [PoolApi.step, destroy] at h
    split at h
    · cases h
    rename_i o ho
    split at h
    · cases h
      exact i.remove ho
    · cases h

theorem Run.inv {tab : Nat → Ops F} {es : List (Ev F)} {w : World F} (h : Run tab es w) : Inv w := by
  induction h with
  | nil => exact Inv.init tab
  | snoc _ hf hs ih => exact ih.step hf hs

/-- The pool `h` and the provider below it. -/
def Holds (w : World F) (h : Nat) (o : Obj F) (u : Nat) : Prop := w.pools h = some o ∧ upstream w o = some u

theorem Holds.remove {w : World F} (i : Inv w) {h k : Nat} {o q : Obj F} {u : Nat} (hk : Holds w k q u) (ho : w.pools h = some o)
    (hne : k ≠ h) : Holds ⟨w.tab, upd w.pools h none, if o.tracked then upd w.wrap o.provider none else w.wrap⟩ k q u := by
  refine ⟨?_, ?_⟩
  · dsimp only; rw [upd_ne _ _ hne]; exact hk.1
  · have h2 := hk.2
    unfold upstream at h2 ⊢
    dsimp only
    cases ht : q.tracked with
    | false => rw [ht] at h2; exact h2
    | true =>
      rw [ht] at h2
      rw [if_pos rfl] at h2 ⊢
      split
      · rename_i hto
        rw [upd_ne _ _ (fun e => hne (i.alone k q h o hk.1 ho ht hto e))]
        exact h2
      · exact h2

/-- Events of others, and calls, leave the pool as it is. -/
theorem Holds.step {w : World F} (i : Inv w) {e : Ev F} (hf : e.Fair w) {r} (h : step w e = some r) {k : Nat} {q : Obj F} {u : Nat}
    (hk : Holds w k q u) (hn : ¬ e.Ends k) : Holds r.1 k q u := by
  cases e with
  | write t o =>
    simp only [PoolApi.step, Option.some.injEq] at h
    subst h
    exact hk
  | createBegin t p ps tr own out a =>
    rcases begin_cases h with h1 | ⟨x, y, f, hx, hy, hi, rfl⟩
    · rw [h1]; exact hk
    · have hne : k ≠ x := by
        intro e
        have := (hf.1 x hx).2
        rw [← e, hk.1] at this
        cases this
      refine ⟨by dsimp only; rw [upd_ne _ _ hne]; exact hk.1, ?_⟩
      have h2 := hk.2
      unfold upstream at h2 ⊢
      dsimp only
      cases ht : q.tracked with
      | false => rw [ht] at h2; exact h2
      | true =>
        rw [ht] at h2
        rw [if_pos rfl] at h2 ⊢
        split
        · rename_i htr
          rw [if_pos htr] at hy
          have := (hf.2 y hy).1
          rw [upd_ne _ _ (by rintro e; rw [e, this] at h2; cases h2)]
          exact h2
        · exact h2
  | createEnd h' ans =>
    have hne : k ≠ h' := fun e => hn e.symm
    simp only [PoolApi.step, createEnd] at h
    split at h
    · cases h
    rename_i o ho
    split at h
    · cases h
      exact ⟨by dsimp only; rw [upd_ne _ _ hne]; exact hk.1, hk.2⟩
    · cases h
      exact hk.remove i ho hne
  | call h' op ans => rw [call_world h]; exact hk
  | ctl h' n a q => rw [ctl_world h]; exact hk
  | getProvider h' out => rw [getProvider_world h]; exact hk
  | destroy h' =>
    have hne : k ≠ h' := fun e => hn e.symm
    simp only [PoolApi.step, destroy] at h
    split at h
    · cases h
    rename_i o ho
    split at h
    · cases h
      exact hk.remove i ho hne
    · cases h

theorem run_snoc {tab : Nat → Ops F} {es : List (Ev F)} {e : Ev F} {w : World F} (h : Run tab (es ++ [e]) w) :
    ∃ w0 r, Run tab es w0 ∧ e.Fair w0 ∧ step w0 e = some r ∧ w = r.1 := by
  generalize he : es ++ [e] = l at h
  cases h with
  | nil => simp at he
  | snoc h1 h2 h3 =>
    obtain ⟨h4, h5⟩ := List.append_inj' he rfl
    cases h5
    subst h4
    exact ⟨_, _, h1, h2, h3, rfl⟩

theorem Holds.run {tab : Nat → Ops F} {es es' : List (Ev F)} {w' : World F} {k : Nat} {q : Obj F} {u : Nat}
    (hw : ∀ w, Run tab es w → Holds w k q u) (h : Run tab (es ++ es') w') (hn : ∀ e ∈ es', ¬ e.Ends k) : Holds w' k q u := by
  induction es' using List.reverseRecOn generalizing w' with
  | nil => rw [List.append_nil] at h; exact hw _ h
  | append_singleton es'' e ih =>
    rw [← List.append_assoc] at h
    obtain ⟨w0, r, h1, h2, h3, rfl⟩ := run_snoc h
    exact (ih h1 (fun f hf => hn f (by simp [hf]))).step h1.inv h2 h3 (hn e (by simp))

/-- What the library keeps of a pool that was created. -/
theorem created_holds {tab : Nat → Ops F} {es : List (Ev F)} {w : World F} {h : Nat} {d : Deed F} (hr : Run tab es w)
    (hc : Created tab es h d) : ∃ p, Holds w h { fill d.ops p d.tracked d.own with priv := some d.priv } d.provider := by
  obtain ⟨es1, es2, es3, t, params, a, he, ht, hp, hm, hl, hw, ho, h2, h3⟩ := hc
  have key : ∃ p, (if d.tracked then a.wrapper else .ok d.provider) = .ok p := by
    cases c : d.tracked with
    | false => exact ⟨d.provider, rfl⟩
    | true =>
      obtain ⟨p, h4⟩ := hw c
      exact ⟨p, h4⟩
  obtain ⟨p, hq⟩ := key
  refine ⟨p, ?_⟩
  rw [he] at hr
  refine Holds.run ?_ hr h3
  intro w1 hr1
  obtain ⟨w0, r, hr0, _, hs, rfl⟩ := run_snoc hr1
  have hold : Holds w0 h (fill d.ops p d.tracked d.own) d.provider := by
    refine Holds.run ?_ hr0 h2
    intro w2 hr2
    obtain ⟨w3, r3, hr3, hf3, hs3, rfl⟩ := run_snoc hr2
    have htab := run_tab hr3 t
    rw [← ho] at htab
    simp only [step, createBegin] at hs3
    rw [if_neg (by simp [ht, hp]), hm] at hs3
    dsimp only at hs3
    rw [hq] at hs3
    dsimp only at hs3
    rw [if_neg (by simp [hl])] at hs3
    split at hs3
    · cases hs3
    · cases hs3
      rw [htab]
      refine ⟨upd_eq _ _ _, ?_⟩
      unfold upstream fill
      dsimp only
      cases c : d.tracked with
      | true => rw [if_pos rfl, if_pos rfl]; exact upd_eq _ _ _
      | false =>
        rw [c] at hq
        cases hq
        rfl
  simp only [step, createEnd, hold.1] at hs
  cases hs
  exact ⟨upd_eq _ _ _, hold.2⟩

theorem created_nonzero {tab : Nat → Ops F} {es : List (Ev F)} {w : World F} {h : Nat} {d : Deed F} (hr : Run tab es w)
    (hc : Created tab es h d) : h ≠ 0 := by
  rintro rfl
  obtain ⟨p, h1, _⟩ := created_holds hr hc
  rw [hr.inv.nonzero] at h1
  cases h1

/-! ## The theorems -/

/-- A call on a pool calls the function that was in the table when the pool was created, with the pool's private data and the
caller's arguments, calls nothing else, and returns what the function returns; whatever happened since to the table and to
other pools. -/
theorem C86_calls {tab : Nat → Ops F} {es : List (Ev F)} {w : World F} {h : Nat} {d : Deed F} (hr : Run tab es w)
    (hc : Created tab es h d) (ans size al num ptr : Nat) :
    (∀ f, d.ops.malloc = some f → step w (.call h (.malloc size) ans) = some (w, [.call f [d.priv, size]], .val ans)) ∧
    (∀ f, d.ops.alignedMalloc = some f →
      step w (.call h (.alignedMalloc size al) ans) = some (w, [.call f [d.priv, size, al]], .val ans)) ∧
    (∀ f, d.ops.calloc = some f → step w (.call h (.calloc num size) ans) = some (w, [.call f [d.priv, num, size]], .val ans)) ∧
    (∀ f, d.ops.realloc = some f → step w (.call h (.realloc ptr size) ans) = some (w, [.call f [d.priv, ptr, size]], .val ans)) ∧
    (∀ f, d.ops.usableSize = some f → step w (.call h (.usableSize ptr) ans) = some (w, [.call f [d.priv, ptr]], .val ans)) ∧
    (∀ f, d.ops.free = some f → step w (.call h (.free ptr) ans) = some (w, [.call f [d.priv, ptr]], .val ans)) ∧
    ∀ f, d.ops.lastError = some f → step w (.call h .lastError ans) = some (w, [.call f [d.priv]], .val ans) := by
  obtain ⟨p, h1, _⟩ := created_holds hr hc
  have h0 := created_nonzero hr hc
  refine ⟨?_, ?_, ?_, ?_, ?_, ?_, ?_⟩ <;> intro f hf <;> simp [step, call, h0, h1, fill, Op.fn, hf, Op.args]

/-- A null handle is refused, and no function is called. -/
theorem C86_null (w : World F) (ans size al num ptr : Nat) :
    step w (.call 0 (.malloc size) ans) = some (w, [], .val 0) ∧
    step w (.call 0 (.alignedMalloc size al) ans) = some (w, [], .val 0) ∧
    step w (.call 0 (.calloc num size) ans) = some (w, [], .val 0) ∧
    step w (.call 0 (.realloc ptr size) ans) = some (w, [], .val 0) ∧
    step w (.call 0 (.usableSize ptr) ans) = some (w, [], .val 0) ∧
    step w (.call 0 (.free ptr) ans) = some (w, [], .err .invalidArgument) ∧
    step w (.call 0 .lastError ans) = some (w, [], .err .invalidArgument) := by
  refine ⟨?_, ?_, ?_, ?_, ?_, ?_, ?_⟩ <;> rfl

/-- The provider that a pool reports is the one it was created with, tracked or not. -/
theorem C86_provider {tab : Nat → Ops F} {es : List (Ev F)} {w : World F} {h : Nat} {d : Deed F} (hr : Run tab es w)
    (hc : Created tab es h d) : step w (.getProvider h true) = some (w, [], .val d.provider) := by
  obtain ⟨p, h1, h2⟩ := created_holds hr hc
  simp [step, getProvider, h1, h2]

/-- A control query reaches the function of the pool, with the handle; without one nothing is called. -/
theorem C86_ctl {tab : Nat → Ops F} {es : List (Ev F)} {w : World F} {h : Nat} {d : Deed F} (hr : Run tab es w)
    (hc : Created tab es h d) (name arg query : Nat) :
    step w (.ctl h name arg query) =
      some (w, (match d.ops.ctl with | some f => [.call f [h, 0, name, arg, query]] | none => []), .val 0) := by
  obtain ⟨p, h1, _⟩ := created_holds hr hc
  simp only [step, ctl, h1, fill]
  cases d.ops.ctl <;> rfl

/-- Destroying a pool calls its own `finalize` once, first, with its private data; then destroys the tracking provider, if it has one,
and the provider it was created with if and only if the pool owns it; nothing else. The pool is gone and the others are as before. -/
theorem C86_destroy {tab : Nat → Ops F} {es : List (Ev F)} {w : World F} {h : Nat} {d : Deed F} (hr : Run tab es w)
    (hc : Created tab es h d) {f : F} (hf : d.ops.finalize = some f) :
    ∃ w' wrapper, step w (.destroy h) = some (w', .call f [d.priv] :: ((if d.tracked then [.destroy wrapper] else []) ++
        (if d.own then [.destroy d.provider] else [])), .done) ∧
      (d.tracked = true → w.wrap wrapper = some d.provider ∧ w'.wrap wrapper = none) ∧
      w'.pools h = none ∧ (∀ k, k ≠ h → w'.pools k = w.pools k) ∧ w'.tab = w.tab := by
  obtain ⟨p, h1, h2⟩ := created_holds hr hc
  refine ⟨⟨w.tab, upd w.pools h none, if d.tracked then upd w.wrap p none else w.wrap⟩, p, ?_, ?_, upd_eq _ _ _,
    fun k hk => upd_ne _ _ hk, rfl⟩
  · simp only [step, destroy, h1]
    rw [h2]
    simp only [fill, hf]
    rfl
  · intro ht
    dsimp only
    rw [if_pos ht]
    unfold upstream at h2
    rw [if_pos (show ({ fill d.ops p d.tracked d.own with priv := some d.priv } : Obj F).tracked = true from ht)] at h2
    exact ⟨h2, upd_eq _ _ _⟩

/-- A creation with a null argument is refused, and nothing is called. -/
theorem C86_refused (w : World F) {t provider : Nat} {out : Bool} (params : Nat) (tracked own : Bool) (a : Ans)
    (h : t = 0 ∨ provider = 0 ∨ out = false) :
    step w (.createBegin t provider params tracked own out a) = some (w, [], .err .invalidArgument) := by
  simp only [step, createBegin]
  rw [if_pos h]

/-- `initialize` of the caller's table is called with the caller's parameters and the provider itself, or a tracking provider
of the pool's own on top of it. -/
theorem C86_init (w : World F) {t provider params : Nat} {tracked own out : Bool} {a : Ans} {w' acts}
    (h : step w (.createBegin t provider params tracked own out a) = some (w', acts, .pending)) :
    ∃ f p, (w.tab t).init = some f ∧ acts = [.call f [p, params]] ∧
      (tracked = false → p = provider) ∧ (tracked = true → w'.wrap p = some provider) := by
  simp only [step, createBegin] at h
  split at h
  · cases h
  split at h
  · cases h
  rename_i x hx
  split at h
  · cases h
  rename_i q hq
  split at h
  · cases h
  split at h
  · cases h
  rename_i f hf
  cases h
  refine ⟨f, q, hf, rfl, ?_, ?_⟩
  · rintro rfl; cases hq; rfl
  · rintro rfl
    dsimp only
    rw [if_pos rfl]
    exact upd_eq _ _ _

/-- A creation that fails leaves no pool and no tracking provider: everything is as before it began, whatever the reason, if nothing
happens while `initialize` runs; a tracking provider that was made is destroyed, and the caller's provider is not. -/
theorem C86_failed {w w' : World F} {t provider params : Nat} {tracked own out : Bool} {a : Ans} {acts e}
    (hf : (Ev.createBegin t provider params tracked own out a).Fair w) :
    (step w (.createBegin t provider params tracked own out a) = some (w', acts, .err e) → w' = w ∧
      (acts = [] ∨ ∃ q, tracked = true ∧ a.wrapper = .ok q ∧ acts = [.destroy q]) ∧
      (tracked = true → ∀ q, a.wrapper = .ok q → e ≠ .invalidArgument → e ≠ .outOfHostMemory → acts = [.destroy q])) ∧
    (step w (.createBegin t provider params tracked own out a) = some (w', acts, .pending) →
      ∃ h q, a.mem = some h ∧ (tracked = true → a.wrapper = .ok q) ∧
        step w' (.createEnd h (.error e)) = some (w, (if tracked then [.destroy q] else []), .err e)) := by
  constructor
  · intro h
    simp only [step, createBegin] at h
    split at h
    · cases h; exact ⟨rfl, .inl rfl, fun _ _ _ h1 => absurd rfl h1⟩
    split at h
    · cases h; exact ⟨rfl, .inl rfl, fun _ _ _ _ h1 => absurd rfl h1⟩
    split at h
    · rename_i e' hw
      cases h
      refine ⟨rfl, .inl rfl, fun ht q hq => ?_⟩
      rw [ht, if_pos rfl, hq] at hw
      cases hw
    rename_i q hq
    split at h
    · cases h
      cases tracked with
      | false => exact ⟨rfl, .inl rfl, fun ht => by cases ht⟩
      | true =>
        rw [if_pos rfl] at hq
        refine ⟨rfl, .inr ⟨q, rfl, hq, rfl⟩, fun _ q' hq' _ _ => ?_⟩
        rw [hq] at hq'
        cases hq'
        rfl
    split at h <;> cases h
  · intro h
    simp only [step, createBegin] at h
    split at h
    · cases h
    split at h
    · cases h
    rename_i x hx
    split at h
    · cases h
    rename_i q hq
    split at h
    · cases h
    split at h
    · cases h
    rename_i f hi
    cases h
    refine ⟨x, q, hx, fun ht => by rw [if_pos ht] at hq; exact hq, ?_⟩
    simp only [step, createEnd]
    rw [upd_eq]
    dsimp only
    congr 1
    have h1 : upd (upd w.pools x (some (fill (w.tab t) q tracked own))) x none = w.pools := by
      funext k
      by_cases c : k = x
      · rw [c, upd_eq, (hf.1 x hx).2]
      · rw [upd_ne _ _ c, upd_ne _ _ c]
    have h2 : (if (fill (w.tab t) q tracked own).tracked then
        upd (if tracked then upd w.wrap q (some provider) else w.wrap) (fill (w.tab t) q tracked own).provider none
        else (if tracked then upd w.wrap q (some provider) else w.wrap)) = w.wrap := by
      cases tracked with
      | false => rfl
      | true =>
        rw [if_pos rfl] at hq
        show upd (upd w.wrap q (some provider)) q none = w.wrap
        funext k
        by_cases c : k = q
        · rw [c, upd_eq, (hf.2 q hq).1]
        · rw [upd_ne _ _ c, upd_ne _ _ c]
    rw [h1, h2]
    rfl

end Verif.PoolApi
