import Verif.TrkConc.Step
/-!
# Lemmas for the tracker used by several threads: the steps of a split and a merge
-/
namespace Verif.TrkConc

variable {s : Sys} {t : Nat} {pc : Pc} {v : Ans}

theorem good_lock {op : Op} {pc' : Pc} (hi : Inv s) (ht : s.thr t = some (op, pc)) (hr : regs op pc' = regs op pc)
    (hb : blocks op pc' = blocks op pc) (hl : Loc (s.st.lv 0) s.st.heap op pc') (lk : Option Nat)
    (hk : (s.st.lock = none ∧ lk = some t ∧ inLock op pc' = true ∧ inLock op pc = false) ∨
      (inLock op pc = true ∧ inLock op pc' = false ∧ lk = none)) : Good s t op pc v { s.st with lock := lk } pc' where
  core := hi.core.same (fun q => by rw [hr, Sys.C_eq ht]) (by rw [hb, Sys.B_eq ht])
  up := hi.up
  loc := hl
  keep := fun e he _ => he
  heap := fun _ _ _ _ => rfl
  size := fun a ha => absurd rfl ha
  lock := Or.inr hk

theorem step_split {r : Rec} {f : Nat} (hi : Inv s) (ht : s.thr t = some (.split r f, pc)) :
    ∃ st' pc', next t (.split r f) s.st pc v = some (st', pc') ∧ Good s t (.split r f) pc v st' pc' := by
  have hl := hi.loc t _ _ ht
  obtain ⟨hf, hf0, hf1⟩ := hi.geo.fit t _ (ops_eq ht)
  have hnd : (blocks (.split r f) pc).Nodup := by
    have := hi.core.nd t
    rw [Sys.B_eq ht] at this
    exact this
  have ho := hf.2.1
  cases pc with
  | start =>
    unfold next
    dsimp only
    by_cases hu : v.addr = 0 ∨ s.st.used v.addr = true
    · rw [if_pos hu]
      exact ⟨_, _, rfl, good_pure hi ht rfl rfl (Or.inr (Or.inl rfl)) rfl⟩
    · rw [if_neg hu]
      exact ⟨_, _, rfl, good_alloc hi ht rfl hu rfl (upd_same _ _ _) rfl⟩
  | lockWait x =>
    unfold next
    dsimp only
    by_cases hk : s.st.lock = none
    · rw [if_pos hk]
      exact ⟨_, _, rfl, good_lock hi ht (pc' := .seekFind x none 0 none none) rfl rfl ⟨rfl, rfl, rfl, rfl, hl⟩ _ (Or.inl ⟨hk, rfl, rfl, rfl⟩)⟩
    · rw [if_neg hk]
      exact ⟨_, _, rfl, good_pure hi ht rfl rfl hl rfl⟩
  | seekFind x lo lvl par last =>
    obtain ⟨rfl, rfl, rfl, rfl, hx⟩ := hl
    obtain ⟨a, ha, _⟩ := hi.core.reg r (reg_mine ht (by simp [regs]))
    unfold next
    dsimp only
    rw [show target (.split r f) none = r.ptr from rfl, find_mine hi ha]
    exact ⟨_, _, rfl, good_pure hi ht rfl rfl ⟨rfl, rfl, rfl, rfl, ha, hx⟩ rfl⟩
  | seekLoad x lo lvl par k a =>
    obtain ⟨rfl, rfl, rfl, rfl, ha, hx⟩ := hl
    unfold next
    dsimp only
    rw [if_pos (by rw [end_mine hi (reg_mine ht (by simp [regs])) hf ha]; show r.ptr < _; omega)]
    exact ⟨_, _, rfl, good_pure hi ht rfl rfl ⟨rfl, rfl, rfl, rfl, ha, hx⟩ rfl⟩
  | seekKids x lo lvl par k a =>
    obtain ⟨rfl, rfl, rfl, rfl, ha, hx⟩ := hl
    unfold next
    dsimp only
    rw [if_neg (by rw [kids_mine hi (reg_mine ht (by simp [regs])) ha]; simp)]
    exact ⟨_, _, rfl, good_pure hi ht rfl rfl ⟨rfl, rfl, rfl, rfl, ha, hx⟩ rfl⟩
  | seekMore x lo lvl par k a =>
    obtain ⟨rfl, rfl, rfl, rfl, ha, hx⟩ := hl
    unfold next
    dsimp only
    rw [if_neg (by rw [kids_mine hi (reg_mine ht (by simp [regs])) ha]; simp)]
    exact ⟨_, _, rfl, good_pure hi ht rfl rfl ⟨rfl, rfl, rfl, rfl, ha, hx⟩ rfl⟩
  | seekEnd x lo lvl par k a =>
    obtain ⟨rfl, rfl, rfl, rfl, ha, hx⟩ := hl
    unfold next
    dsimp only
    rw [if_neg (by simp [target]), if_neg (by rw [kids_mine hi (reg_mine ht (by simp [regs])) ha]; simp)]
    exact ⟨_, _, rfl, good_pure hi ht rfl rfl ⟨rfl, rfl, ha, hx⟩ rfl⟩
  | spSize x lvl par a =>
    obtain ⟨rfl, rfl, ha, hx⟩ := hl
    unfold next
    dsimp only
    rw [if_neg (by rw [hi.core.info (reg_mine ht (by simp [regs])) ha]; exact fun h => h rfl)]
    exact ⟨_, _, rfl, good_pure hi ht rfl rfl ⟨rfl, rfl, ha, hx⟩ rfl⟩
  | spUp x lvl par a =>
    obtain ⟨rfl, rfl, ha, hx⟩ := hl
    unfold next
    dsimp only
    by_cases hok : v.ok = true
    · rw [if_pos hok]
      exact ⟨_, _, rfl, good_pure hi ht rfl rfl ⟨rfl, rfl, ha, hx⟩ rfl⟩
    · rw [if_neg hok]
      exact ⟨_, _, rfl, good_pure hi ht rfl rfl (Or.inr rfl) rfl⟩
  | spPut x lvl par a =>
    obtain ⟨rfl, rfl, ha, hx⟩ := hl
    refine ⟨_, _, rfl, good_put hi ht (r := r.lower f) (q := r) ha rfl rfl hx ?_ ?_ rfl rfl (Nat.le_refl _) ?_⟩
    · intro p
      simp only [regs, List.mem_singleton]
      constructor
      · exact Or.inl
      · rintro (h | ⟨h, rfl⟩)
        · exact h
        · exact absurd rfl h
    · exact ⟨rfl, rfl, List.mem_cons_self, hi.core.info (reg_mine ht (by simp [regs])) ha⟩
    · show r.ptr < _
      omega
  | spAlloc x lvl par a =>
    obtain ⟨rfl, rfl, hx, ha⟩ := hl
    unfold next
    dsimp only
    by_cases hu : v.addr = 0 ∨ s.st.used v.addr = true
    · rw [if_pos hu]
      exact ⟨_, _, rfl, good_pure hi ht rfl rfl ⟨rfl, hx, ha, rfl⟩ rfl⟩
    · rw [if_neg hu]
      have hne : a ≠ v.addr := by
        rintro rfl
        have := (hi.core.usedB t v.addr (by rw [Sys.B_eq ht]; simp [blocks])).1
        exact hu (Or.inr this)
      exact ⟨_, _, rfl, good_alloc hi ht rfl hu rfl ⟨rfl, rfl, hx, by rw [upd_ne _ _ hne]; exact ha, upd_same _ _ _⟩ rfl⟩
  | spInsert x lvl par a y =>
    obtain ⟨rfl, rfl, hx, ha, hy⟩ := hl
    unfold next
    dsimp only
    by_cases hok : v.ok = false
    · rw [if_pos hok]
      exact ⟨_, _, rfl, good_pure hi ht rfl rfl ⟨rfl, hx, ha, rfl⟩ rfl⟩
    · rw [if_neg hok]
      have hk : ∀ a, ((r.upper f).ptr, a) ∉ s.st.lv 0 := by
        intro a ha
        obtain ⟨q, g1, g2⟩ := hi.core.key _ ha
        obtain ⟨k1, k2⟩ := key_other hi ht (q := r) rfl (k := (r.upper f).ptr) (by simp [Rec.upper]) (by simp only [Rec.upper]; omega)
        rcases (reg_split (t := t)).1 g1 with (g1 | ⟨t', g1, g3⟩) | g1
        · exact k1 q g1 g2
        · exact k2 t' q g1 g3 g2
        · rw [Sys.C_eq ht] at g1
          simp only [regs, List.mem_singleton] at g1
          subst g1
          simp only [Rec.upper, Rec.lower] at g2
          omega
      rw [if_neg (fun h => by obtain ⟨a, ha⟩ := hasKey_iff.1 h; exact hk a ha)]
      refine ⟨_, _, rfl, good_insert hi ht (r := r.upper f) ?_ (by simp [blocks]) ?_ hy hk trivial rfl⟩
      · intro p
        simp [regs, or_comm]
      · have : a ≠ y := by
          simp only [blocks, List.nodup_cons, List.mem_singleton] at hnd
          exact hnd.1
        simp [blocks, this]
  | spDrop x lvl a y res =>
    obtain ⟨rfl, hx, ha, rfl⟩ := hl
    have : a ≠ y := by
      simp only [blocks, List.nodup_cons, List.mem_singleton] at hnd
      exact hnd.1
    exact ⟨_, _, rfl, good_free hi ht rfl (by simp [blocks]) (by simp [blocks, this])
      (fun _ => ⟨rfl, hx, by rw [upd_ne _ _ this]; exact ha, rfl⟩) rfl⟩
  | spRevert x lvl a res =>
    obtain ⟨rfl, hx, ha, rfl⟩ := hl
    refine ⟨_, _, rfl, good_put hi ht (r := r) (q := r) hx rfl rfl ha ?_ (Or.inl rfl) rfl rfl (Nat.le_refl _) (by omega)⟩
    intro p
    simp only [regs, List.mem_singleton]
    constructor
    · exact Or.inl
    · rintro (h | ⟨h, rfl⟩)
      · exact h
      · exact absurd rfl h
  | freeLast a =>
    exact ⟨_, _, rfl, good_free hi ht rfl List.mem_cons_self (by simp [blocks]) (fun _ => trivial) rfl⟩
  | unlock => exact ⟨_, _, rfl, good_lock hi ht (pc' := .fin .success) rfl rfl (Or.inl rfl) _ (Or.inr ⟨rfl, rfl, rfl⟩)⟩
  | errUnlock x res =>
    exact ⟨_, _, rfl, good_lock hi ht (pc' := .errFree x res) rfl rfl hl _ (Or.inr ⟨rfl, rfl, rfl⟩)⟩
  | errFree x res =>
    refine ⟨_, _, rfl, good_free hi ht ?_ List.mem_cons_self (by simp [blocks]) (fun _ => Or.inr hl) rfl⟩
    rcases hl with rfl | rfl <;> rfl
  | fin res => exact ⟨_, _, rfl, good_pure hi ht rfl rfl hl rfl⟩
  | _ => exact False.elim hl

theorem setKids_self {st : St} {x : Addr} {n : Nat} (h : (st.heap x).nch = n) : setKids st x n = st := by
  have : upd st.heap x { st.heap x with nch := n } = st.heap := by
    funext b
    by_cases e : b = x
    · rw [e, upd_same, ← h]
    · rw [upd_ne _ _ e]
  unfold setKids
  rw [this]

theorem step_merge {l h : Rec} (hi : Inv s) (ht : s.thr t = some (.merge l h, pc)) :
    ∃ st' pc', next t (.merge l h) s.st pc v = some (st', pc') ∧ Good s t (.merge l h) pc v st' pc' := by
  have hl := hi.loc t _ _ ht
  obtain ⟨hf, hg, hp, hq⟩ := hi.geo.fit t _ (ops_eq ht)
  have hlo := hf.2.1
  have hho := hg.2.1
  have hho2 := hg.2.2
  have hW : (l.size + h.size) % W = l.size + h.size := Nat.mod_eq_of_lt (by rw [W_eq]; omega)
  -- the region that is sought
  have sought : ∀ lo : Option (Nat × Addr), regs (.merge l h) pc = [l, h] →
      ∃ q : Rec, q.ptr = target (.merge l h) lo ∧ q.Ok ∧ Reg s.live s.C q := by
    intro lo hr
    unfold target
    dsimp only
    split
    · exact ⟨l, rfl, hf, reg_mine ht (by rw [hr]; simp)⟩
    · exact ⟨h, rfl, hg, reg_mine ht (by rw [hr]; simp)⟩
  cases pc with
  | start =>
    unfold next
    dsimp only
    by_cases hu : v.addr = 0 ∨ s.st.used v.addr = true
    · rw [if_pos hu]
      exact ⟨_, _, rfl, good_pure hi ht rfl rfl (Or.inr (Or.inl rfl)) rfl⟩
    · rw [if_neg hu]
      refine ⟨_, _, rfl, good_alloc hi ht rfl hu rfl ?_ rfl⟩
      show upd _ _ _ _ = _
      rw [upd_same, hW]
      rfl
  | lockWait x =>
    unfold next
    dsimp only
    by_cases hk : s.st.lock = none
    · rw [if_pos hk]
      exact ⟨_, _, rfl, good_lock hi ht (pc' := .seekFind x none 0 none none) rfl rfl ⟨rfl, rfl, rfl, hl, fun _ h => (nomatch h)⟩ _ (Or.inl ⟨hk, rfl, rfl, rfl⟩)⟩
    · rw [if_neg hk]
      exact ⟨_, _, rfl, good_pure hi ht rfl rfl hl rfl⟩
  | seekFind x lo lvl par last =>
    obtain ⟨rfl, rfl, rfl, hx, hlow⟩ := hl
    obtain ⟨q, q1, q2, q3⟩ := sought lo rfl
    obtain ⟨a, ha, _⟩ := hi.core.reg q q3
    unfold next
    dsimp only
    rw [← q1, find_mine hi ha]
    exact ⟨_, _, rfl, good_pure hi ht rfl rfl ⟨rfl, rfl, q1, ha, hx, hlow⟩ rfl⟩
  | seekLoad x lo lvl par k a =>
    obtain ⟨rfl, rfl, rfl, ha, hx, hlow⟩ := hl
    obtain ⟨q, q1, q2, q3⟩ := sought lo rfl
    have ha' : (q.ptr, a) ∈ s.st.lv 0 := by rw [q1]; exact ha
    unfold next
    dsimp only
    rw [if_pos (by rw [← q1, end_mine hi q3 q2 ha']; have := q2.2.1; omega)]
    exact ⟨_, _, rfl, good_pure hi ht rfl rfl ⟨rfl, rfl, rfl, ha, hx, hlow⟩ rfl⟩
  | seekKids x lo lvl par k a =>
    obtain ⟨rfl, rfl, rfl, ha, hx, hlow⟩ := hl
    obtain ⟨q, q1, q2, q3⟩ := sought lo rfl
    have ha' : (q.ptr, a) ∈ s.st.lv 0 := by rw [q1]; exact ha
    unfold next
    dsimp only
    rw [if_neg (by rw [kids_mine hi q3 ha']; simp)]
    exact ⟨_, _, rfl, good_pure hi ht rfl rfl ⟨rfl, rfl, rfl, ha, hx, hlow⟩ rfl⟩
  | seekMore x lo lvl par k a =>
    obtain ⟨rfl, rfl, rfl, ha, hx, hlow⟩ := hl
    obtain ⟨q, q1, q2, q3⟩ := sought lo rfl
    have ha' : (q.ptr, a) ∈ s.st.lv 0 := by rw [q1]; exact ha
    unfold next
    dsimp only
    rw [if_neg (by rw [kids_mine hi q3 ha']; simp)]
    exact ⟨_, _, rfl, good_pure hi ht rfl rfl ⟨rfl, rfl, rfl, ha, hx, hlow⟩ rfl⟩
  | seekEnd x lo lvl par k a =>
    obtain ⟨rfl, rfl, rfl, ha, hx, hlow⟩ := hl
    unfold next
    dsimp only
    rw [if_neg (fun h => h rfl), if_neg (by simp [noKids])]
    unfold seekDone
    dsimp only
    cases lo with
    | none =>
      refine ⟨_, _, rfl, good_pure hi ht rfl rfl ⟨rfl, rfl, rfl, hx, ?_⟩ rfl⟩
      rintro e ⟨⟩
      exact ⟨rfl, ha⟩
    | some e =>
      obtain ⟨g1, g2⟩ := hlow e rfl
      exact ⟨_, _, rfl, good_pure hi ht rfl rfl ⟨g1, rfl, g2, ha, hx⟩ rfl⟩
  | mgCheck x ll la lh ha =>
    obtain ⟨rfl, rfl, h1, h2, hx⟩ := hl
    have e1 := hi.core.info (reg_mine ht (by simp [regs])) h1
    have e2 := hi.core.info (reg_mine ht (by simp [regs])) h2
    unfold next
    dsimp only
    rw [if_neg (fun h => h rfl), if_neg (by rw [e1, e2]; exact fun h => h hq), if_neg (by rw [e1, e2]; exact fun h => h rfl)]
    rw [setKids_self (by rw [hx, e1, e2]; rfl)]
    exact ⟨_, _, rfl, good_pure hi ht rfl rfl ⟨rfl, rfl, h1, h2, hx⟩ rfl⟩
  | mgUp x ll la lh ha =>
    obtain ⟨rfl, rfl, h1, h2, hx⟩ := hl
    unfold next
    dsimp only
    by_cases hok : v.ok = true
    · rw [if_pos hok]
      exact ⟨_, _, rfl, good_pure hi ht rfl rfl ⟨rfl, rfl, h1, h2, hx⟩ rfl⟩
    · rw [if_neg hok]
      exact ⟨_, _, rfl, good_pure hi ht rfl rfl rfl rfl⟩
  | mgPut x ll la lh ha =>
    obtain ⟨rfl, rfl, h1, h2, hx⟩ := hl
    refine ⟨_, _, rfl, good_put hi ht (r := l.join h) (q := l.join h) h1 rfl rfl hx ?_ ⟨rfl, ?_⟩ rfl rfl (Nat.le_refl _) ?_⟩
    · intro p
      simp only [regs, List.mem_cons, List.not_mem_nil, or_false]
      constructor
      · rintro (h | rfl)
        · exact Or.inl h
        · refine Or.inr ⟨?_, Or.inr rfl⟩
          simp only [Rec.join]
          omega
      · rintro (h | ⟨h, rfl | rfl⟩)
        · exact Or.inl h
        · exact absurd rfl h
        · exact Or.inr rfl
    · refine List.mem_cons_of_mem _ (mem_del.2 ⟨h2, ?_⟩)
      simp only [Rec.join]
      omega
    · simp only [Rec.join]
      omega
  | mgFreeLow la lh ha =>
    obtain ⟨rfl, h2⟩ := hl
    exact ⟨_, _, rfl, good_free hi ht rfl List.mem_cons_self (by simp [blocks]) (fun _ => ⟨rfl, h2⟩) rfl⟩
  | mgRemove lh ha =>
    obtain ⟨rfl, h2⟩ := hl
    unfold next
    dsimp only
    rw [if_pos (look_some hi.core.uniq h2)]
    refine ⟨_, _, rfl, good_del hi ht (q := l.join h) h2 ?_ rfl trivial rfl rfl ?_ ?_⟩
    · intro p
      simp only [regs, List.mem_cons, List.not_mem_nil, or_false]
      constructor
      · rintro rfl
        refine ⟨?_, Or.inl rfl⟩
        simp only [Rec.join]
        omega
      · rintro ⟨h3, rfl | rfl⟩
        · rfl
        · exact absurd rfl h3
    · simp only [Rec.join]
      omega
    · simp only [Rec.join]
      omega
  | freeLast a =>
    exact ⟨_, _, rfl, good_free hi ht rfl List.mem_cons_self (by simp [blocks]) (fun _ => trivial) rfl⟩
  | unlock => exact ⟨_, _, rfl, good_lock hi ht (pc' := .fin .success) rfl rfl (Or.inl rfl) _ (Or.inr ⟨rfl, rfl, rfl⟩)⟩
  | errUnlock x res =>
    exact ⟨_, _, rfl, good_lock hi ht (pc' := .errFree x res) rfl rfl hl _ (Or.inr ⟨rfl, rfl, rfl⟩)⟩
  | errFree x res =>
    have hl : res = .upstream := hl
    subst hl
    exact ⟨_, _, rfl, good_free hi ht rfl List.mem_cons_self (by simp [blocks]) (fun _ => Or.inr (Or.inr rfl)) rfl⟩
  | fin res => exact ⟨_, _, rfl, good_pure hi ht rfl rfl hl rfl⟩
  | _ => exact False.elim hl

theorem step {op : Op} (hi : Inv s) (ht : s.thr t = some (op, pc)) (hv : Careful s t v) :
    ∃ st' pc', next t op s.st pc v = some (st', pc') ∧ Good s t op pc v st' pc' := by
  cases op with
  | add r => exact step_add hi ht hv
  | remove r => exact step_remove hi ht
  | split r f => exact step_split hi ht
  | merge l h => exact step_merge hi ht
  | look r x => exact step_look hi ht

end Verif.TrkConc
