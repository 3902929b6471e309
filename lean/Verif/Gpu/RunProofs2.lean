import Verif.Gpu.RunProofs
import Mathlib.Tactic.Tauto

/-! # Proofs about single runs of the programs, continued -/
namespace Verif.Gpu

variable {E : Env} {Q : List (Call × Resp) → Option Out → Prop}

theorem run_cuParamsCreate : after (Good E .cuParamsCreate) (cuParamsCreate E) [] := by
  unfold cuParamsCreate
  intro r
  dsimp only
  split
  · next he => exact good_refused (c := .baAlloc 24) (r := r) (by simp) he rfl (by simp [resultOf])
  next he =>
  split
  · next hE =>
    rintro o ho
    cases ho
    exact ⟨by simp, .inr (.inr (.inr (.inr (.inr (.inl ⟨rfl, .inl ⟨by simpa using hE, .inl rfl⟩⟩)))))⟩
  · intro r1 r2
    exact good_done rfl ⟨24, r, by simp, by simpa using he, rfl⟩

theorem run_zeParamsCreate : after (Good E .zeParamsCreate) zeParamsCreate [] := by
  unfold zeParamsCreate
  intro r
  dsimp only
  split
  · next he => exact good_refused (c := .baAlloc 48) (r := r) (by simp) he rfl (by simp [resultOf])
  · next he => exact good_done rfl ⟨48, r, by simp, by simpa using he, rfl⟩

theorem run_paramsDestroy {q : Nat} : after (Good E (.paramsDestroy q)) (paramsDestroy q) [] := by
  unfold paramsDestroy
  split
  · next h => exact good_done rfl (.inl h)
  · intro r
    exact good_done rfl (.inr ⟨r, by simp⟩)

theorem type_ok {t : Nat} (h : ¬(t = 0 ∨ t > 3)) : t = 1 ∨ t = 2 ∨ t = 3 := by omega

theorem run_cuCreate {P : Option CuParams} : after (Good E (.cuCreate P)) (cuCreate E P) [] := by
  unfold cuCreate
  cases P with
  | none =>
    rintro o ho
    cases ho
    exact ⟨by simp, .inr (.inr (.inr (.inr (.inl ⟨rfl, .inl (.inl rfl)⟩))))⟩
  | some P =>
    dsimp only
    split
    · next h =>
      rintro o ho
      cases ho
      refine ⟨by simp, .inr (.inr (.inr (.inr (.inl ⟨rfl, .inl (.inr ⟨P, rfl, .inl ?_⟩)⟩))))⟩
      have h : P.type = 0 ∨ P.type > 3 := h
      have key : ∀ t : Nat, t = 0 ∨ t > 3 → ¬(t = 1 ∨ t = 2 ∨ t = 3) := by omega
      exact key _ h
    next ht =>
    have ht := type_ok ht
    split
    · next h =>
      rintro o ho
      cases ho
      exact ⟨by simp, .inr (.inr (.inr (.inr (.inl ⟨rfl, .inl (.inr ⟨P, rfl, .inr (.inl h)⟩)⟩))))⟩
    next hctx =>
    split
    · next h =>
      rintro o ho
      cases ho
      exact ⟨by simp, .inr (.inr (.inr (.inr (.inl ⟨rfl, .inl (.inr ⟨P, rfl, .inr (.inr h)⟩)⟩))))⟩
    next hdev =>
    split
    · next hE =>
      rintro o ho
      cases ho
      exact ⟨by simp, .inr (.inr (.inr (.inr (.inr (.inl ⟨rfl, .inl ⟨by simpa using hE, .inr ⟨_, rfl⟩⟩⟩)))))⟩
    intro m
    dsimp only
    split
    · next he => exact good_refused (c := .baAlloc 40) (r := m) (by simp) he rfl (by simp [resultOf])
    intro g
    dsimp only
    split
    · next he =>
      intro r
      refine after_cu2umf ?_
      exact good_refused (c := .cuGranularity P.dev false) (r := g) (by simp) he
        (by simp [resultOf, cuRes, he]) (by
          have := cuRes_ne he
          simpa [resultOf, cuRes, he] using this)
    · next he =>
      have he : g.err = 0 := by simpa using he
      refine good_done rfl ⟨P, _, rfl, rfl, ⟨rfl, rfl, rfl, ht, hctx, by omega, ?_, ?_⟩, g, by simp, he, rfl⟩
      · intro h
        exact if_pos h
      · intro h
        exact if_neg h

theorem run_cuDestroy {p : CuProv} : after (Good E (.cuDestroy p)) (cuDestroy p) [] := by
  unfold cuDestroy
  intro r
  exact good_done rfl ⟨r, by simp⟩

theorem run_cuPageSize {p : CuProv} {b : Bool} : after (Good E (.cuPageSize p b)) (cuPageSize p b) [] := by
  unfold cuPageSize
  intro r
  refine after_cu2umf ?_
  exact good_cu (c := .cuGranularity p.dev b) (r := r) (by simp) (fun e he => by simp [resultOf, cuRes, he]) rfl
    (fun he => ⟨r, by simp, he, rfl⟩)

theorem run_cuIpcGet {p : CuProv} {q : Nat} : after (Good E (.cuIpcGet p q)) (cuIpcGet p q) [] := by
  unfold cuIpcGet
  intro r
  dsimp only
  split
  · next he =>
    exact after_cu2umf (good_cu (c := .cuIpcGetMemHandle q) (r := r) (by simp)
      (fun e he => by simp [resultOf, cuRes, he]) rfl (fun h => absurd h he))
  · next he => exact good_done rfl ⟨r, by simp, by simpa using he, rfl⟩

theorem run_cuIpcClose {p : CuProv} {q : Nat} : after (Good E (.cuIpcClose p q)) (cuIpcClose p q) [] := by
  unfold cuIpcClose
  intro r
  dsimp only
  split
  · next he =>
    exact after_cu2umf (good_cu (c := .cuIpcCloseMemHandle q) (r := r) (by simp)
      (fun e he => by simp [resultOf, cuRes, he]) rfl (fun h => absurd h he))
  · next he => exact good_done rfl ⟨r, by simp, by simpa using he, trivial⟩

theorem run_cuIpcOpen {p : CuProv} {h : Nat} : after (Good E (.cuIpcOpen p h)) (cuIpcOpen p h) [] := by
  unfold cuIpcOpen
  refine after_setContext (fun rs tr' hs => ?_) (fun rs tr' c r hs hm he hc => ?_)
  · rw [if_neg (by simp)]
    intro r
    have hd : ∀ tr'', Sub (tr' ++ [(.cuIpcOpenMemHandle h, r)]) tr'' →
        after (Good E (.cuIpcOpen p h)) (.ret { res := cuRes r.err, ptr := r.val }) tr'' := by
      intro tr'' h2
      have hm : (.cuIpcOpenMemHandle h, r) ∈ tr'' := h2 _ (by simp)
      exact good_cu hm (fun e he => by simp [resultOf, cuRes, he]) rfl (fun he => ⟨r, hm, he, rfl⟩)
    exact after_setContext (fun _ _ h2 => after_cu2umf (hd _ h2)) (fun _ _ _ _ h2 _ _ _ => after_cu2umf (hd _ h2))
  · rw [if_pos (cuRes_ne he)]
    exact good_ctx hm he hc rfl

/-! ## Level Zero -/

theorem resultOf_resident {ctx d p n e : Nat} (he : e ≠ 0) : resultOf (.zeMakeResident ctx d p n) e = zeRes e := by
  simp [resultOf, zeRes, he]

theorem after_zeResidents {ctx ptr size : Nat} {k : Res → Prog} : ∀ {devs : List Nat} {tr},
    (∀ tr', Sub tr tr' → (∀ d ∈ devs, Did tr' (.zeMakeResident ctx d ptr size)) → after Q (k .success) tr') →
    (∀ tr' c r, Sub tr tr' → (c, r) ∈ tr' → r.err ≠ 0 → (∀ e, e ≠ 0 → resultOf c e = zeRes e) →
      after Q (k (zeRes r.err)) tr') →
    after Q (zeResidents ctx ptr size k devs) tr := by
  intro devs
  induction devs with
  | nil =>
    intro tr hs _
    exact hs tr .refl (by simp)
  | cons d ds ih =>
    intro tr hs hf
    unfold zeResidents
    intro r
    dsimp only
    split
    · next he =>
      exact after_ze2umf (hf _ (.zeMakeResident ctx d ptr size) r .append (by simp) he
        (fun e he => resultOf_resident he))
    · next he =>
      refine ih (fun tr' h1 h2 => hs tr' (.trans .append h1) ?_)
        (fun tr' c r' h1 h2 h3 h4 => hf tr' c r' (.trans .append h1) h2 h3 h4)
      intro d' hd'
      rcases List.mem_cons.1 hd' with rfl | h
      · exact ⟨r, h1 _ (by simp), by simpa using he, trivial⟩
      · exact h2 d' h

theorem after_zeAllocK {p : ZeProv} {n a : Nat} {k : Res → Nat → Prog} {tr}
    (hs : ∀ ptr tr', Sub tr tr' →
      ((∃ c, Did tr' c (· = ptr) ∧
        ((p.type = 1 ∧ c = .zeMemAllocHost p.ctx n a) ∨
          (p.type = 2 ∧ c = .zeMemAllocDevice p.ctx p.dev p.ordinal (decide (p.maxAlloc < n)) n a) ∨
          (p.type = 3 ∧ c = .zeMemAllocShared p.ctx p.dev p.ordinal (decide (p.maxAlloc < n)) n a))) ∧
        ∀ d ∈ p.resident, Did tr' (.zeMakeResident p.ctx d ptr n)) → after Q (k .success ptr) tr')
    (hf : ∀ ptr tr' c r, Sub tr tr' → (c, r) ∈ tr' → r.err ≠ 0 → (∀ e, e ≠ 0 → resultOf c e = zeRes e) →
      after Q (k (zeRes r.err) ptr) tr')
    (hu : ¬(p.type = 1 ∨ p.type = 2 ∨ p.type = 3) → after Q (k .unknown 0) tr) :
    after Q (zeAllocK p n a k) tr := by
  unfold zeAllocK
  cases hcall : zeAllocCall p n a with
  | none =>
    refine hu ?_
    unfold zeAllocCall at hcall
    split at hcall
    · cases hcall
    split at hcall
    · cases hcall
    split at hcall
    · cases hcall
    · next h1 h2 h3 =>
      rintro (h | h | h)
      · exact h1 h
      · exact h2 h
      · exact h3 h
  | some c =>
    have hc : ((p.type = 1 ∧ c = .zeMemAllocHost p.ctx n a) ∨
          (p.type = 2 ∧ c = .zeMemAllocDevice p.ctx p.dev p.ordinal (decide (p.maxAlloc < n)) n a) ∨
          (p.type = 3 ∧ c = .zeMemAllocShared p.ctx p.dev p.ordinal (decide (p.maxAlloc < n)) n a)) := by
      unfold zeAllocCall at hcall
      split at hcall
      · next h =>
        cases hcall
        exact .inl ⟨h, rfl⟩
      split at hcall
      · next h =>
        cases hcall
        exact .inr (.inl ⟨h, rfl⟩)
      split at hcall
      · next h =>
        cases hcall
        exact .inr (.inr ⟨h, rfl⟩)
      · cases hcall
    have hres : ∀ e, e ≠ 0 → resultOf c e = zeRes e := by
      intro e he
      rcases hc with ⟨_, rfl⟩ | ⟨_, rfl⟩ | ⟨_, rfl⟩ <;> simp [resultOf, zeRes, he]
    intro r
    dsimp only
    split
    · next he => exact after_ze2umf (hf _ _ c r .append (by simp) he hres)
    · next he =>
      refine after_zeResidents (fun tr' h1 h2 => ?_) (fun tr' c' r' h1 h2 h3 h4 => ?_)
      · exact hs r.val tr' (.trans .append h1) ⟨⟨c, ⟨r, h1 _ (by simp), by simpa using he, rfl⟩, hc⟩, h2⟩
      · exact hf _ tr' c' r' (.trans .append h1) h2 h3 h4

theorem run_zeAlloc {p : ZeProv} {n a : Nat} : after (Good E (.zeAlloc p n a)) (zeAlloc p n a) [] := by
  unfold zeAlloc
  refine after_zeAllocK (fun ptr tr' _ h => ?_) (fun ptr tr' c r _ hm he hc => ?_) (fun ht => ?_)
  · exact good_done rfl h
  · exact good_ze hm hc rfl (fun h => absurd h he)
  · rintro o ho
    cases ho
    exact ⟨by simp, .inr (.inr (.inr (.inr (.inr (.inr ⟨rfl, .inr ⟨p, rfl, ht⟩⟩)))))⟩

theorem run_zeFree {p : ZeProv} {q : Nat} : after (Good E (.zeFree p q)) (zeFree E p q) [] := by
  unfold zeFree zeFreeK
  split
  · next h => exact good_done rfl (.inl h)
  split
  · next hp =>
    intro r
    refine after_ze2umf ?_
    exact good_ze (c := .zeMemFree p.ctx q) (r := r) (by simp) (fun e he => by simp [resultOf, zeRes, he]) rfl
      (fun he => .inr (.inl ⟨hp, r, by simp, he, trivial⟩))
  next hp =>
  split
  · intro r
    refine after_ze2umf ?_
    exact good_ze (c := .zeMemFreeExt p.ctx p.policy q) (r := r) (by simp)
      (fun e he => by simp [resultOf, zeRes, he]) rfl (fun he => .inr (.inr ⟨hp, r, by simp, he, trivial⟩))
  · exact good_ub

theorem after_zeFreeK {p : ZeProv} {q : Nat} {k : Res → Prog} {tr} (hub : ∀ tr, Q tr none)
    (h : ∀ u tr', Sub tr tr' → after Q (k u) tr') : after Q (zeFreeK E p q k) tr := by
  unfold zeFreeK
  split
  · exact h _ _ .refl
  split
  · intro r
    exact after_ze2umf (h _ _ .append)
  split
  · intro r
    exact after_ze2umf (h _ _ .append)
  · exact hub _

theorem run_zeCreateEnd {Pz : ZeParams} {p : ZeProv} {tr} (hctx : p.ctx = Pz.ctx)
    (hdev : Pz.dev ≠ 0 → Did tr (.zeDeviceGetProperties Pz.dev) (· = p.maxAlloc)) :
    after (Good E (.zeCreate (some Pz))) (zeCreateEnd E p) tr := by
  unfold zeCreateEnd zeQuery
  refine after_zeAllocK (fun ptr tr' hs h => ?_) (fun ptr tr' c r _ hm he hc => ?_) (fun ht => ?_)
  · rw [if_neg (by simp)]
    intro r
    refine after_zeFreeK (fun _ => good_ub) fun u tr2 h2 => ?_
    refine after_ze2umf ?_
    dsimp only
    by_cases he : r.err = 0
    · rw [if_neg (by rw [he]; simp [zeRes])]
      refine good_done rfl ⟨Pz, _, rfl, rfl, ?_, ptr, r, h2 _ (by simp [hctx]), he, rfl⟩
      intro hd
      obtain ⟨r', hm, h3⟩ := hdev hd
      exact ⟨r', h2 _ (List.mem_append_left _ (hs _ hm)), h3⟩
    · rw [if_pos (zeRes_ne he)]
      exact good_ub
  · rw [if_pos (zeRes_ne he)]
    dsimp only
    rw [if_pos (zeRes_ne he)]
    exact good_ub
  · rw [if_pos (by simp)]
    dsimp only
    rw [if_pos (by simp)]
    exact good_ub

theorem run_zeCreateResidents {Pz : ZeParams} {p : ZeProv} {tr} (hctx : p.ctx = Pz.ctx)
    (hdev : Pz.dev ≠ 0 → Did tr (.zeDeviceGetProperties Pz.dev) (· = p.maxAlloc)) :
    after (Good E (.zeCreate (some Pz))) (zeCreateResidents E Pz p) tr := by
  unfold zeCreateResidents
  split
  · intro r
    dsimp only
    split
    · next he =>
      intro r2
      exact good_refused (c := .baAlloc (8 * Pz.count)) (r := r) (by simp) he rfl (by simp [resultOf])
    split
    · exact good_ub
    split
    · exact good_ub
    · refine run_zeCreateEnd hctx fun hd => ?_
      obtain ⟨r', hm, h3⟩ := hdev hd
      exact ⟨r', List.mem_append_left _ hm, h3⟩
  · exact run_zeCreateEnd hctx hdev

theorem run_zeCreate {P : Option ZeParams} : after (Good E (.zeCreate P)) (zeCreate E P) [] := by
  unfold zeCreate
  cases P with
  | none =>
    rintro o ho
    cases ho
    exact ⟨by simp, .inr (.inr (.inr (.inr (.inl ⟨rfl, .inr (.inl rfl)⟩))))⟩
  | some P =>
    have bad : ∀ tr, (P.ctx = 0 ∨ (P.type = 1 ∧ P.dev ≠ 0) ∨ (P.type ≠ 1 ∧ P.dev = 0) ∨
        (P.count ≠ 0 ∧ P.resident = none)) →
        after (Good E (.zeCreate (some P))) (.done .invalidArgument) tr := by
      intro tr h o ho
      cases ho
      exact ⟨by simp, .inr (.inr (.inr (.inr (.inl ⟨rfl, .inr (.inr ⟨P, rfl, h⟩)⟩))))⟩
    dsimp only
    split
    · next h => exact bad _ (.inl h)
    split
    · next h =>
      refine bad _ ?_
      rw [decide_eq_decide] at h
      have h : P.type = 1 ↔ P.dev ≠ 0 := h
      tauto
    split
    · next h => exact bad _ (.inr (.inr (.inr h)))
    split
    · next hE =>
      rintro o ho
      cases ho
      exact ⟨by simp, .inr (.inr (.inr (.inr (.inr (.inl ⟨rfl, .inr ⟨by simpa using hE, _, rfl⟩⟩)))))⟩
    intro m
    dsimp only
    split
    · next he => exact good_refused (c := .baAlloc 472) (r := m) (by simp) he rfl (by simp [resultOf])
    split
    · intro r
      refine after_ze2umf ?_
      split
      · next hu =>
        have he : r.err ≠ 0 := fun h => hu (zeRes_success.2 h)
        intro r2
        exact good_ze (c := .zeDeviceGetProperties P.dev) (r := r) (by simp)
          (fun e he => by simp [resultOf, zeRes, he]) rfl (fun h => absurd h he)
      · next hu =>
        have he : r.err = 0 := by
          have : zeRes r.err = .success := by simpa using hu
          exact zeRes_success.1 this
        exact run_zeCreateResidents rfl fun _ => ⟨r, by simp, he, rfl⟩
    · next hd => exact run_zeCreateResidents rfl fun h => absurd h hd

theorem run_zeDestroy {p : ZeProv} : after (Good E (.zeDestroy p)) (zeDestroy p) [] := by
  unfold zeDestroy
  split
  · next h =>
    intro r
    exact good_done rfl ⟨⟨r, by simp⟩, fun h' => absurd h h'⟩
  · intro r r2
    exact good_done rfl ⟨⟨r2, by simp⟩, fun _ => ⟨r, by simp⟩⟩

theorem run_zePageSize {p : ZeProv} {q : Nat} : after (Good E (.zePageSize p q)) (zePageSize p q) [] := by
  unfold zePageSize
  split
  · next h => exact good_done rfl (.inl ⟨h, rfl⟩)
  next h =>
  intro r
  dsimp only
  split
  · next he =>
    exact after_ze2umf (good_ze (c := .zeMemGetAllocProperties p.ctx q) (r := r) (by simp)
      (fun e he => by simp [resultOf, zeRes, he]) rfl (fun h => absurd h he))
  · next he => exact good_done rfl (.inr ⟨h, r, by simp, by simpa using he, rfl⟩)

theorem run_zeIpcGet {p : ZeProv} {q : Nat} : after (Good E (.zeIpcGet p q)) (zeIpcGet p q) [] := by
  unfold zeIpcGet
  intro r
  dsimp only
  split
  · next he =>
    exact after_ze2umf (good_ze (c := .zeMemGetIpcHandle p.ctx q) (r := r) (by simp)
      (fun e he => by simp [resultOf, zeRes, he]) rfl (fun h => absurd h he))
  · next he =>
    intro g
    exact good_done rfl ⟨r, g, by simp, by simpa using he, by simp, rfl⟩

theorem run_zeIpcPut {p : ZeProv} {d : ZeIpc} : after (Good E (.zeIpcPut p d)) (zeIpcPut E p d) [] := by
  unfold zeIpcPut
  split
  · next h => exact good_done rfl (.inl (by simpa using h))
  intro r
  dsimp only
  split
  · next he =>
    exact after_ze2umf (good_ze (c := .zeMemPutIpcHandle p.ctx d.h) (r := r) (by simp)
      (fun e he => by simp [resultOf, zeRes, he]) rfl (fun h => absurd h he))
  · next he => exact good_done rfl (.inr ⟨r, by simp, by simpa using he, trivial⟩)

theorem resultOf_dup {pid fd e : Nat} : resultOf (.dupFd pid fd) e = errnoRes e := by
  unfold resultOf errnoRes
  simp

theorem errno_failed {e : Nat} : errnoRes e ≠ .success := by
  unfold errnoRes
  repeat' split
  all_goals simp

theorem run_zeIpcOpen {p : ZeProv} {d : ZeIpc} : after (Good E (.zeIpcOpen p d)) (zeIpcOpen p d) [] := by
  unfold zeIpcOpen
  intro g
  dsimp only
  split
  · intro f
    dsimp only
    split
    · next he =>
      exact good_refused (c := .dupFd d.pid d.h.fd) (r := f) (by simp) he resultOf_dup.symm
        (by rw [resultOf_dup]; exact errno_failed)
    · intro r r2
      dsimp only
      split
      · next he =>
        exact after_ze2umf (good_ze (c := .zeMemOpenIpcHandle p.ctx p.dev { d.h with fd := f.val }) (r := r)
          (by simp) (fun e he => by simp [resultOf, zeRes, he]) rfl (fun h => absurd h he))
      · next he => exact good_done rfl ⟨{ d.h with fd := f.val }, ⟨r, by simp, by simpa using he, rfl⟩, rfl⟩
  · intro r
    dsimp only
    split
    · next he =>
      exact after_ze2umf (good_ze (c := .zeMemOpenIpcHandle p.ctx p.dev d.h) (r := r)
        (by simp) (fun e he => by simp [resultOf, zeRes, he]) rfl (fun h => absurd h he))
    · next he => exact good_done rfl ⟨d.h, ⟨r, by simp, by simpa using he, rfl⟩, rfl⟩

theorem run_zeIpcClose {p : ZeProv} {q : Nat} : after (Good E (.zeIpcClose p q)) (zeIpcClose p q) [] := by
  unfold zeIpcClose
  intro r
  dsimp only
  split
  · next he =>
    exact after_ze2umf (good_ze (c := .zeMemCloseIpcHandle p.ctx q) (r := r) (by simp)
      (fun e he => by simp [resultOf, zeRes, he]) rfl (fun h => absurd h he))
  · next he => exact good_done rfl ⟨r, by simp, by simpa using he, trivial⟩

/-- Every call of the client. -/
theorem run_good (op : Op) : after (Good E op) (op.prog E) [] := by
  cases op
  · exact run_cuParamsCreate
  · exact run_zeParamsCreate
  · exact run_paramsDestroy
  · exact run_cuCreate
  · exact run_cuDestroy
  · exact run_cuAlloc
  · exact run_cuFree
  · exact run_cuPageSize
  · exact run_cuIpcGet
  · exact run_cuIpcOpen
  · exact run_cuIpcClose
  · exact run_zeCreate
  · exact run_zeDestroy
  · exact run_zeAlloc
  · exact run_zeFree
  · exact run_zePageSize
  · exact run_zeIpcGet
  · exact run_zeIpcPut
  · exact run_zeIpcOpen
  · exact run_zeIpcClose

end Verif.Gpu
