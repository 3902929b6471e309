import Verif.Gpu.RunSpec

/-! # Proofs about single runs of the programs -/
namespace Verif.Gpu

variable {E : Env} {Q : List (Call × Resp) → Option Out → Prop}

/-- However the program goes on after these calls, it ends with `Q`. -/
def after (Q : List (Call × Resp) → Option Out → Prop) : Prog → List (Call × Resp) → Prop
  | .ret o, tr => Q tr (some o)
  | .ub, tr => Q tr none
  | .call c k, tr => ∀ r, after Q (k r) (tr ++ [(c, r)])
  | .store _ _ k, tr => after Q k tr

theorem after_runs : ∀ {p : Prog} {tr0 tr : List (Call × Resp)} {out : Option Out},
    after Q p tr0 → p.Runs tr out → Q (tr0 ++ tr) out
  | .ret o, tr0, tr, out, h, ⟨h1, h2⟩ => by
    subst h1 h2
    rw [List.append_nil]
    exact h
  | .ub, tr0, tr, out, h, ⟨h1, h2⟩ => by
    subst h1 h2
    rw [List.append_nil]
    exact h
  | .call c k, tr0, tr, out, h, ⟨r, tr', h1, h2⟩ => by
    subst h1
    have := after_runs (h r) h2
    simpa using this
  | .store _ _ k, tr0, tr, out, h, h1 => after_runs (p := k) h h1

/-- The results of CUDA. -/
def cuRes (e : Nat) : Res :=
  if e = 0 then .success else if e = 2 then .outOfHostMemory else if e = 1 ∨ e = 400 then .invalidArgument
  else if e = 4 then .outOfResources else .specific

def zeRes (e : Nat) : Res :=
  if e = 0 then .success else if e = 0x70000002 then .outOfHostMemory
  else if e = 0x78000004 then .invalidArgument else .specific

theorem cuRes_success {e : Nat} : cuRes e = .success ↔ e = 0 := by
  unfold cuRes
  repeat' split
  all_goals simp_all

theorem zeRes_success {e : Nat} : zeRes e = .success ↔ e = 0 := by
  unfold zeRes
  repeat' split
  all_goals simp_all

theorem cuRes_not {e : Nat} : cuRes e ≠ .invalidAlignment := by
  unfold cuRes
  repeat' split
  all_goals simp_all

theorem after_cu2umf {e : Nat} {k : Res → Prog} {tr} (h : after Q (k (cuRes e)) tr) : after Q (cu2umf e k) tr := by
  revert h
  unfold cu2umf cuRes
  repeat' split
  all_goals exact id

theorem after_ze2umf {e : Nat} {k : Res → Prog} {tr} (h : after Q (k (zeRes e)) tr) : after Q (ze2umf e k) tr := by
  revert h
  unfold ze2umf zeRes
  repeat' split
  all_goals exact id

/-- Later runs contain the calls of earlier ones. -/
def Sub (a b : List (Call × Resp)) : Prop := ∀ x ∈ a, x ∈ b

theorem Sub.refl {a} : Sub a a := fun _ h => h
theorem Sub.trans {a b c} (h : Sub a b) (h' : Sub b c) : Sub a c := fun x hx => h' x (h x hx)
theorem Sub.append {a b} : Sub a (a ++ b) := fun _ h => List.mem_append_left _ h

theorem after_setContext {req : Nat} {k : Res → Nat → Prog} {tr}
    (hs : ∀ rs tr', Sub tr tr' → after Q (k .success rs) tr')
    (hf : ∀ rs tr' c r, Sub tr tr' → (c, r) ∈ tr' → r.err ≠ 0 → c.isCtx = true →
      after Q (k (cuRes r.err) rs) tr') :
    after Q (setContext req k) tr := by
  unfold setContext
  intro r
  dsimp only
  split
  · next he =>
    exact after_cu2umf (hf 0 _ .cuCtxGetCurrent r .append (by simp) he rfl)
  split
  · intro r2
    dsimp only
    split
    · next he => exact after_cu2umf (hf _ _ (.cuCtxSetCurrent req) r2 (.trans .append .append) (by simp) he rfl)
    · exact hs _ _ (.trans .append .append)
  · exact hs _ _ .append

/-- The claim about a run. -/
def Good (E : Env) (op : Op) (tr : List (Call × Resp)) (out : Option Out) : Prop :=
  ∀ o, out = some o → (o.res = .success → Done E op o tr) ∧ Explained E op o tr

theorem resultOf_ctx {c : Call} {e : Nat} (h : c.isCtx = true) (he : e ≠ 0) : resultOf c e = cuRes e := by
  cases c <;> simp only [Call.isCtx, Bool.false_eq_true] at h <;> simp [resultOf, cuRes, he]

/-- A call was refused and its result is returned. -/
theorem good_refused {op : Op} {o : Out} {tr} {c : Call} {r : Resp} (hm : (c, r) ∈ tr) (he : r.err ≠ 0)
    (hr : o.res = resultOf c r.err) (hn : resultOf c r.err ≠ .success) : Good E op tr (some o) := by
  rintro o' h
  cases h
  exact ⟨fun h => absurd (hr ▸ h) hn, .inr (.inl ⟨c, r, hm, he, hr⟩)⟩

theorem good_done {op : Op} {o : Out} {tr} (hr : o.res = .success) (h : Done E op o tr) : Good E op tr (some o) := by
  rintro o' h'
  cases h'
  exact ⟨fun _ => h, .inl hr⟩

theorem good_ub {op : Op} {tr} : Good E op tr none := by
  rintro o h
  cases h

theorem cuRes_ne {e : Nat} (h : e ≠ 0) : cuRes e ≠ .success := fun h' => h (cuRes_success.1 h')
theorem zeRes_ne {e : Nat} (h : e ≠ 0) : zeRes e ≠ .success := fun h' => h (zeRes_success.1 h')

/-- The end of the CUDA functions: the answer is translated and returned. -/
theorem good_cu {op : Op} {o : Out} {tr} {c : Call} {r : Resp} (hm : (c, r) ∈ tr)
    (hc : ∀ e, e ≠ 0 → resultOf c e = cuRes e) (hr : o.res = cuRes r.err)
    (hd : r.err = 0 → Done E op o tr) : Good E op tr (some o) := by
  by_cases he : r.err = 0
  · exact good_done (by rw [hr, he]; rfl) (hd he)
  · exact good_refused hm he (by rw [hr, hc _ he]) (by rw [hc _ he]; exact cuRes_ne he)

theorem good_ze {op : Op} {o : Out} {tr} {c : Call} {r : Resp} (hm : (c, r) ∈ tr)
    (hc : ∀ e, e ≠ 0 → resultOf c e = zeRes e) (hr : o.res = zeRes r.err)
    (hd : r.err = 0 → Done E op o tr) : Good E op tr (some o) := by
  by_cases he : r.err = 0
  · exact good_done (by rw [hr, he]; rfl) (hd he)
  · exact good_refused hm he (by rw [hr, hc _ he]) (by rw [hc _ he]; exact zeRes_ne he)

theorem good_ctx {op : Op} {o : Out} {tr} {c : Call} {r : Resp} (hm : (c, r) ∈ tr) (he : r.err ≠ 0)
    (hc : c.isCtx = true) (hr : o.res = cuRes r.err) : Good E op tr (some o) :=
  good_refused hm he (by rw [hr, resultOf_ctx hc he]) (by rw [resultOf_ctx hc he]; exact cuRes_ne he)

/-- Freeing, when only what comes after matters. -/
theorem after_cuFreeK {p : CuProv} {ptr : Nat} {k : Res → Prog} {tr}
    (h : ∀ u tr', Sub tr tr' → after Q (k u) tr') : after Q (cuFreeK p ptr k) tr := by
  unfold cuFreeK
  split
  · exact h _ _ .refl
  refine after_setContext (fun rs tr' hs => ?_) (fun rs tr' c r hs hm he hc => ?_)
  · rw [if_neg (by simp)]
    split
    · intro r
      refine after_setContext (fun _ _ h2 => after_cu2umf (h _ _ (.trans hs (.trans .append h2))))
        (fun _ _ _ _ h2 _ _ _ => after_cu2umf (h _ _ (.trans hs (.trans .append h2))))
    split
    · intro r
      refine after_setContext (fun _ _ h2 => after_cu2umf (h _ _ (.trans hs (.trans .append h2))))
        (fun _ _ _ _ h2 _ _ _ => after_cu2umf (h _ _ (.trans hs (.trans .append h2))))
    · exact h _ _ hs
  · rw [if_pos (cuRes_ne he)]
    exact h _ _ hs

theorem run_cuFree {p : CuProv} {q : Nat} : after (Good E (.cuFree p q)) (cuFree p q) [] := by
  unfold cuFree cuFreeK
  split
  · next h => exact good_done rfl (.inl h)
  refine after_setContext (fun rs tr' hs => ?_) (fun rs tr' c r hs hm he hc => ?_)
  · rw [if_neg (by simp)]
    split
    · next ht =>
      intro r
      have hd : ∀ tr'', Sub (tr' ++ [(.cuMemFreeHost q, r)]) tr'' → after (Good E (.cuFree p q)) (.done (cuRes r.err)) tr'' := by
        intro tr'' h2
        have hm : (.cuMemFreeHost q, r) ∈ tr'' := h2 _ (by simp)
        exact good_cu hm (fun e he => by simp [resultOf, cuRes, he]) rfl
          (fun he => .inr (.inl ⟨ht, r, hm, he, trivial⟩))
      exact after_setContext (fun _ _ h2 => after_cu2umf (hd _ h2)) (fun _ _ _ _ h2 _ _ _ => after_cu2umf (hd _ h2))
    split
    · next ht =>
      intro r
      have hd : ∀ tr'', Sub (tr' ++ [(.cuMemFree q, r)]) tr'' → after (Good E (.cuFree p q)) (.done (cuRes r.err)) tr'' := by
        intro tr'' h2
        have hm : (.cuMemFree q, r) ∈ tr'' := h2 _ (by simp)
        exact good_cu hm (fun e he => by simp [resultOf, cuRes, he]) rfl
          (fun he => .inr (.inr ⟨ht.symm, r, hm, he, trivial⟩))
      exact after_setContext (fun _ _ h2 => after_cu2umf (hd _ h2)) (fun _ _ _ _ h2 _ _ _ => after_cu2umf (hd _ h2))
    · next h1 h2 =>
      rintro o ho
      cases ho
      refine ⟨by simp, .inr (.inr (.inr (.inr (.inr (.inr ⟨rfl, .inl ⟨p, rfl, ?_⟩⟩)))))⟩
      rintro (h | h | h)
      · exact h1 h
      · exact h2 (.inr h)
      · exact h2 (.inl h)
  · rw [if_pos (cuRes_ne he)]
    exact good_ctx hm he hc rfl

theorem run_cuAlloc {p : CuProv} {n a : Nat} : after (Good E (.cuAlloc p n a)) (cuAlloc p n a) [] := by
  unfold cuAlloc
  split
  · next h =>
    rintro o ho
    cases ho
    exact ⟨by simp [], .inr (.inr (.inl ⟨rfl, p, n, a, rfl, h⟩))⟩
  refine after_setContext (fun rs tr' hs => ?_) (fun rs tr' c r hs hm he hc => ?_)
  · rw [if_neg (by simp)]
    have key : ∀ c : Call, ((p.type = 1 ∧ c = .cuMemHostAlloc n p.flags) ∨ (p.type = 2 ∧ c = .cuMemAlloc n) ∨
        (p.type = 3 ∧ c = .cuMemAllocManaged n p.flags)) → after (Good E (.cuAlloc p n a))
        (.call c fun r =>
          setContext rs fun _ _ => cu2umf r.err fun u =>
            if u ≠ .success then .done u
            else if a > 0 ∧ r.val % a ≠ 0 then
              cuFreeK p r.val fun _ => .ret { res := .invalidAlignment, ptr := r.val }
            else .ret { res := u, ptr := r.val }) tr' := by
      intro c hc r
      dsimp only
      have hd : ∀ tr'', Sub (tr' ++ [(c, r)]) tr'' → after (Good E (.cuAlloc p n a))
          (if cuRes r.err ≠ .success then .done (cuRes r.err)
            else if a > 0 ∧ r.val % a ≠ 0 then cuFreeK p r.val fun _ => .ret { res := .invalidAlignment, ptr := r.val }
            else .ret { res := cuRes r.err, ptr := r.val }) tr'' := by
        intro tr'' h2
        have hm : (c, r) ∈ tr'' := h2 _ (by simp)
        have hres : ∀ e, e ≠ 0 → resultOf c e = cuRes e := by
          intro e he
          rcases hc with ⟨_, rfl⟩ | ⟨_, rfl⟩ | ⟨_, rfl⟩ <;> simp [resultOf, cuRes, he]
        split
        · next he =>
          have he : r.err ≠ 0 := fun h => he (cuRes_success.2 h)
          exact good_cu hm hres rfl (fun h => absurd h he)
        next he =>
        have he : r.err = 0 := by
          have : cuRes r.err = .success := by simpa using he
          exact cuRes_success.1 this
        split
        · next hal =>
          refine after_cuFreeK fun u tr3 h3 => ?_
          rintro o ho
          cases ho
          refine ⟨by simp, .inr (.inr (.inr (.inl ⟨rfl, p, n, a, c, r, rfl, h3 _ hm, he, ?_, by omega, ?_⟩)))⟩
          · rcases hc with ⟨_, rfl⟩ | ⟨_, rfl⟩ | ⟨_, rfl⟩ <;> rfl
          · intro hdvd
            exact hal.2 (Nat.mod_eq_zero_of_dvd hdvd)
        · exact good_done (by rw [he]; rfl) ⟨c, ⟨r, hm, he, rfl⟩, hc⟩
      exact after_setContext (fun _ _ h2 => after_cu2umf (hd _ h2)) (fun _ _ _ _ h2 _ _ _ => after_cu2umf (hd _ h2))
    cases hcall : cuAllocCall p n with
    | none =>
      rintro o ho
      cases ho
      refine ⟨by simp, .inr (.inr (.inr (.inr (.inr (.inr ⟨rfl, .inl ⟨p, rfl, ?_⟩⟩)))))⟩
      unfold cuAllocCall at hcall
      split at hcall
      · cases hcall
      split at hcall
      · cases hcall
      split at hcall
      · cases hcall
      · next h1 h2 h3 =>
        rintro (h | h | h)
        · exact h1 h
        · exact h2 h
        · exact h3 h
    | some c =>
      refine key c ?_
      unfold cuAllocCall at hcall
      split at hcall
      · next h =>
        cases hcall
        exact .inl ⟨h, rfl⟩
      split at hcall
      · next h =>
        cases hcall
        exact .inr (.inl ⟨h, rfl⟩)
      split at hcall
      · next h =>
        cases hcall
        exact .inr (.inr ⟨h, rfl⟩)
      · cases hcall
  · rw [if_pos (cuRes_ne he)]
    exact good_ctx hm he hc rfl

end Verif.Gpu
