import Verif.TrkConc.Inv
/-!
# Lemmas for the tracker used by several threads: kinds of steps
-/
namespace Verif.TrkConc

structure Good (s : Sys) (t : Nat) (op : Op) (pc : Pc) (v : Ans) (st' : St) (pc' : Pc) : Prop where
  core : Core (st'.lv 0) st'.heap st'.used s.live (upd s.C t (regs op pc')) (upd s.B t (blocks op pc'))
  up : ∀ n, st'.lv (n + 1) = []
  loc : Loc (st'.lv 0) st'.heap op pc'
  keep : ∀ e ∈ s.st.lv 0, (∀ q, op.span = some q → e.1 < q.ptr ∨ q.ptr + q.size ≤ e.1) → e ∈ st'.lv 0
  heap : ∀ t', t' ≠ t → ∀ x ∈ s.B t', st'.heap x = s.st.heap x
  size : ∀ a, (st'.heap a).size ≠ (s.st.heap a).size → a = v.addr
  lock : (st'.lock = s.st.lock ∧ inLock op pc' = inLock op pc) ∨
    (s.st.lock = none ∧ st'.lock = some t ∧ inLock op pc' = true ∧ inLock op pc = false) ∨
    (inLock op pc = true ∧ inLock op pc' = false ∧ st'.lock = none)

variable {s : Sys} {t : Nat} {op : Op} {pc pc' : Pc} {v : Ans}

theorem Sys.C_eq (ht : s.thr t = some (op, pc)) : s.C t = regs op pc := by simp only [Sys.C, ht]
theorem Sys.B_eq (ht : s.thr t = some (op, pc)) : s.B t = blocks op pc := by simp only [Sys.B, ht]

theorem good_pure (hi : Inv s) (ht : s.thr t = some (op, pc)) (hr : regs op pc' = regs op pc) (hb : blocks op pc' = blocks op pc)
    (hl : Loc (s.st.lv 0) s.st.heap op pc') (hk : inLock op pc' = inLock op pc) : Good s t op pc v s.st pc' where
  core := hi.core.same (fun q => by rw [hr, Sys.C_eq ht]) (by rw [hb, Sys.B_eq ht])
  up := hi.up
  loc := hl
  keep := fun e he _ => he
  heap := fun _ _ _ _ => rfl
  size := fun a ha => absurd rfl ha
  lock := Or.inl ⟨rfl, hk⟩

theorem good_alloc (hi : Inv s) (ht : s.thr t = some (op, pc)) {i : Info} (hr : regs op pc' = regs op pc)
    (hu : ¬(v.addr = 0 ∨ s.st.used v.addr = true)) (hb : blocks op pc' = blocks op pc ++ [v.addr])
    (hl : Loc (s.st.lv 0) (upd s.st.heap v.addr i) op pc') (hk : inLock op pc' = inLock op pc) :
    Good s t op pc v (newBlk s.st v.addr i) pc' := by
  have hu' : s.st.used v.addr = false := by
    cases e : s.st.used v.addr
    · rfl
    · exact absurd (Or.inr e) hu
  have hne : ∀ t' x, x ∈ s.B t' → x ≠ v.addr := by
    rintro t' x h1 rfl
    have := (hi.core.usedB t' _ h1).1
    rw [hu'] at this
    cases this
  have hnd : (blocks op pc').Nodup := by
    rw [hb, List.nodup_append, ← Sys.B_eq ht]
    refine ⟨hi.core.nd t, by simp, ?_⟩
    intro a ha b hb
    rw [List.mem_singleton.1 hb]
    exact hne t a ha
  refine ⟨?_, hi.up, hl, fun e he _ => he, ?_, ?_, Or.inl ⟨rfl, hk⟩⟩
  · exact hi.core.alloc (fun q => by rw [hr, Sys.C_eq ht]) hu' (fun a => by rw [hb, Sys.B_eq ht, List.mem_append, List.mem_singleton, or_comm]) hnd
  · intro t' _ x hx
    exact upd_ne _ _ (hne t' x hx)
  · intro a ha
    by_cases e : a = v.addr
    · exact e
    · exact absurd (by show (upd s.st.heap v.addr i a).size = _; rw [upd_ne _ _ e]) ha

theorem good_free (hi : Inv s) (ht : s.thr t = some (op, pc)) {x : Addr} (hr : regs op pc' = regs op pc)
    (hx : x ∈ blocks op pc) (hb : blocks op pc' = (blocks op pc).erase x)
    (hl : ∀ i, Loc (s.st.lv 0) (upd s.st.heap x i) op pc') (hk : inLock op pc' = inLock op pc) :
    Good s t op pc v (freeBlk s.st x v.junk) pc' := by
  have hB := Sys.B_eq ht
  have hnd : (blocks op pc).Nodup := by
    have := hi.core.nd t
    rw [hB] at this
    exact this
  refine ⟨?_, hi.up, hl _, fun e he _ => he, ?_, ?_, Or.inl ⟨rfl, hk⟩⟩
  · exact hi.core.free (fun q => by rw [hr, Sys.C_eq ht]) (by rw [hB]; exact hx)
      (fun a => by rw [hb, hB, hnd.mem_erase_iff]) (by rw [hb]; exact hnd.erase _)
  · intro t' htt y hy
    refine upd_ne _ _ ?_
    rintro rfl
    exact htt (hi.core.sep _ _ _ hy (by rw [hB]; exact hx))
  · intro a ha
    refine absurd ?_ ha
    show (upd s.st.heap x _ a).size = _
    by_cases e : a = x
    · rw [e, upd_same]
    · rw [upd_ne _ _ e]

theorem setLv_lv0 (st : St) (l : List (Nat × Addr)) : (setLv st 0 l).lv 0 = l := upd_same st.lv 0 l
theorem setLv_up (st : St) (l : List (Nat × Addr)) (n : Nat) : (setLv st 0 l).lv (n + 1) = st.lv (n + 1) := upd_ne (a := 0) (b := n + 1) st.lv l (by omega)

theorem good_insert (hi : Inv s) (ht : s.thr t = some (op, pc)) {x : Addr} {r : Rec}
    (hr : ∀ p, p ∈ regs op pc' ↔ p = r ∨ p ∈ regs op pc) (hx : x ∈ blocks op pc) (hb : blocks op pc' = (blocks op pc).erase x)
    (hh : s.st.heap x = r.info) (hk : ∀ a, (r.ptr, a) ∉ s.st.lv 0)
    (hl : Loc ((r.ptr, x) :: s.st.lv 0) s.st.heap op pc') (hlk : inLock op pc' = inLock op pc) :
    Good s t op pc v (setLv s.st 0 ((r.ptr, x) :: s.st.lv 0)) pc' := by
  have hB := Sys.B_eq ht
  have hnd : (blocks op pc).Nodup := by
    have := hi.core.nd t
    rw [hB] at this
    exact this
  refine ⟨?_, ?_, ?_, ?_, fun _ _ _ _ => rfl, fun a ha => absurd rfl ha, Or.inl ⟨rfl, hlk⟩⟩
  · rw [setLv_lv0]
    exact hi.core.insert (fun p => by rw [hr, Sys.C_eq ht]) (by rw [hB]; exact hx) hh hk
      (fun a => by rw [hb, hB, hnd.mem_erase_iff]) (by rw [hb]; exact hnd.erase _)
  · intro n
    rw [setLv_up]
    exact hi.up n
  · rw [setLv_lv0]
    exact hl
  · intro e he _
    rw [setLv_lv0]
    exact List.mem_cons_of_mem _ he

/-- Whatever another thread has registered is apart from the span of this thread. -/
theorem regs_in_span {p q : Rec} (hf : op.Fit) (hs : op.span = some q) (hp : p ∈ regs op pc) :
    q.ptr ≤ p.ptr ∧ p.ptr + p.size ≤ q.ptr + q.size ∧ 0 < p.size := by
  cases op with
  | add r =>
    cases hs
    have h2 : p = q := by
      unfold regs at hp
      split at hp <;> simp_all
    subst h2
    exact ⟨Nat.le_refl _, Nat.le_refl _, hf.2.1⟩
  | remove r =>
    cases hs
    have h2 : p = q := by
      unfold regs at hp
      split at hp <;> simp_all
    subst h2
    exact ⟨Nat.le_refl _, Nat.le_refl _, hf.2.1⟩
  | split r f =>
    cases hs
    obtain ⟨⟨_, _, _⟩, _, _⟩ := hf
    have h2 : p = q ∨ p = q.lower f ∨ p = q.upper f := by
      unfold regs at hp
      split at hp <;> simp_all
    rcases h2 with rfl | rfl | rfl
    · exact ⟨Nat.le_refl _, Nat.le_refl _, by omega⟩
    · simp only [Rec.lower]
      omega
    · simp only [Rec.upper]
      omega
  | merge l h =>
    cases hs
    obtain ⟨⟨_, _, _⟩, ⟨_, _, _⟩, _, _⟩ := hf
    have h2 : p = l ∨ p = h ∨ p = l.join h := by
      unfold regs at hp
      split at hp <;> simp_all
      all_goals rcases hp with h | h <;> simp [h]
    rcases h2 with rfl | rfl | rfl <;> simp only [Rec.join] <;> omega
  | look r x => cases hs

theorem thr_C {s : Sys} {t : Nat} {p : Rec} (h : p ∈ s.C t) : ∃ op pc, s.thr t = some (op, pc) ∧ p ∈ regs op pc := by
  unfold Sys.C at h
  cases e : s.thr t with
  | none => rw [e] at h; cases h
  | some x => rw [e] at h; exact ⟨x.1, x.2, rfl, h⟩

theorem regs_span {p : Rec} (hp : p ∈ regs op pc) : ∃ q, op.span = some q := by
  cases op with
  | look r x => cases hp
  | _ => exact ⟨_, rfl⟩

/-- A key in the span of a thread belongs to a region of that thread. -/
theorem key_other (hi : Inv s) (ht : s.thr t = some (op, pc)) {q : Rec} (hq : op.span = some q) {k : Nat} (hk : q.ptr ≤ k)
    (hk2 : k < q.ptr + q.size) : (∀ p ∈ s.live, p.ptr ≠ k) ∧ ∀ t' p, t' ≠ t → p ∈ s.C t' → p.ptr ≠ k := by
  have hO : s.ops t = some op := by simp [Sys.ops, ht]
  refine ⟨?_, ?_⟩
  · rintro p hp rfl
    have := hi.geo.spanLive t op q hO hq p hp
    have h2 := hi.geo.liveOk p hp
    unfold Apart at this
    unfold Rec.Ok at h2
    omega
  · rintro t' p htt hp rfl
    obtain ⟨op', pc2, h1, h2⟩ := thr_C hp
    obtain ⟨q', hq'⟩ := regs_span h2
    have hO' : s.ops t' = some op' := by simp [Sys.ops, h1]
    have h3 := regs_in_span (hi.geo.fit t' op' hO') hq' h2
    have h4 := hi.geo.spans t' t op' op q' q htt hO' hO hq' hq
    unfold Apart at h4
    omega

theorem good_del (hi : Inv s) (ht : s.thr t = some (op, pc)) {x : Addr} {k : Nat} {q : Rec} (hx : (k, x) ∈ s.st.lv 0)
    (hr : ∀ p, p ∈ regs op pc' ↔ p.ptr ≠ k ∧ p ∈ regs op pc) (hb : blocks op pc' = x :: blocks op pc)
    (hl : Loc (del (s.st.lv 0) k) s.st.heap op pc') (hlk : inLock op pc' = inLock op pc) (hq : op.span = some q)
    (hk : q.ptr ≤ k) (hk2 : k < q.ptr + q.size) :
    Good s t op pc v (setLv s.st 0 (del (s.st.lv 0) k)) pc' := by
  have hB := Sys.B_eq ht
  obtain ⟨g1, g2⟩ := key_other hi ht hq hk hk2
  have hxB : x ∉ s.B t := fun h2 => (hi.core.usedB t x h2).2 _ hx rfl
  refine ⟨?_, ?_, ?_, ?_, fun _ _ _ _ => rfl, fun a ha => absurd rfl ha, Or.inl ⟨rfl, hlk⟩⟩
  · rw [setLv_lv0]
    exact hi.core.del hx (fun p => by rw [hr, Sys.C_eq ht]) g1 g2 (fun a => by rw [hb, hB, List.mem_cons])
      (by rw [hb, ← hB]; exact List.nodup_cons.2 ⟨hxB, hi.core.nd t⟩)
  · intro n
    rw [setLv_up]
    exact hi.up n
  · rw [setLv_lv0]
    exact hl
  · intro e he hout
    rw [setLv_lv0, mem_del]
    refine ⟨he, ?_⟩
    have := hout q hq
    omega

theorem good_put (hi : Inv s) (ht : s.thr t = some (op, pc)) {x y : Addr} {r q : Rec} (hx : (r.ptr, x) ∈ s.st.lv 0)
    (hy : blocks op pc = [y]) (hb : blocks op pc' = [x]) (hh : s.st.heap y = r.info)
    (hr : ∀ p, p ∈ regs op pc' ↔ p = r ∨ (p.ptr ≠ r.ptr ∧ p ∈ regs op pc))
    (hl : Loc (put (s.st.lv 0) r.ptr y) s.st.heap op pc') (hlk : inLock op pc' = inLock op pc) (hq : op.span = some q)
    (hk : q.ptr ≤ r.ptr) (hk2 : r.ptr < q.ptr + q.size) :
    Good s t op pc v (setLv s.st 0 (put (s.st.lv 0) r.ptr y)) pc' := by
  have hB := Sys.B_eq ht
  obtain ⟨g1, g2⟩ := key_other hi ht hq hk hk2
  refine ⟨?_, ?_, ?_, ?_, fun _ _ _ _ => rfl, fun a ha => absurd rfl ha, Or.inl ⟨rfl, hlk⟩⟩
  · rw [setLv_lv0]
    exact hi.core.put hx (by rw [hB, hy]; simp) hh (fun p => by rw [hr, Sys.C_eq ht]) g1 g2
      (fun a => by rw [hb, hB, hy]; simp) (by rw [hb]; simp)
  · intro n
    rw [setLv_up]
    exact hi.up n
  · rw [setLv_lv0]
    exact hl
  · intro e he hout
    rw [setLv_lv0]
    refine List.mem_cons_of_mem _ (mem_del.2 ⟨he, ?_⟩)
    have := hout q hq
    omega

end Verif.TrkConc
