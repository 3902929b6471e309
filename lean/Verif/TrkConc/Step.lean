import Verif.TrkConc.Good
/-!
# Lemmas for the tracker used by several threads: the steps of each operation
-/
namespace Verif.TrkConc

variable {s : Sys} {t : Nat} {pc : Pc} {v : Ans}

theorem W_eq : W = 2 ^ 64 := rfl

theorem ops_eq {op : Op} (ht : s.thr t = some (op, pc)) : s.ops t = some op := by simp [Sys.ops, ht]

theorem reg_mine {op : Op} (ht : s.thr t = some (op, pc)) {r : Rec} (h : r ∈ regs op pc) : Reg s.live s.C r :=
  Or.inr ⟨t, by rw [Sys.C_eq ht]; exact h⟩

/-- The greatest key not above the start of a region of this thread is its own. -/
theorem find_mine (hi : Inv s) {r : Rec} {a : Addr} (ha : (r.ptr, a) ∈ s.st.lv 0) : findLe (s.st.lv 0) r.ptr = some (r.ptr, a) :=
  findLe_eq hi.core.uniq ha (Nat.le_refl _) fun _ _ h => h

theorem end_mine (hi : Inv s) {r : Rec} (hr : Reg s.live s.C r) (ho : r.Ok) {a : Addr} (ha : (r.ptr, a) ∈ s.st.lv 0) :
    endOf s.st r.ptr a = r.ptr + r.size := by
  unfold endOf
  rw [hi.core.info hr ha]
  exact Nat.mod_eq_of_lt ho.2.2

theorem kids_mine (hi : Inv s) {r : Rec} (hr : Reg s.live s.C r) {a : Addr} (ha : (r.ptr, a) ∈ s.st.lv 0) : (s.st.heap a).nch = 0 := by
  rw [hi.core.info hr ha]
  rfl

theorem step_add {r : Rec} (hi : Inv s) (ht : s.thr t = some (.add r, pc)) (hv : Careful s t v) :
    ∃ st' pc', next t (.add r) s.st pc v = some (st', pc') ∧ Good s t (.add r) pc v st' pc' := by
  have hl := hi.loc t _ _ ht
  have hf : r.Ok := hi.geo.fit t _ (ops_eq ht)
  cases pc with
  | start => exact ⟨_, _, rfl, good_pure hi ht rfl rfl ⟨rfl, rfl⟩ rfl⟩
  | addFind lvl par =>
    obtain ⟨rfl, rfl⟩ := hl
    unfold next
    cases hp : v.pick with
    | none => exact ⟨_, _, rfl, good_pure hi ht rfl rfl ⟨rfl, rfl⟩ rfl⟩
    | some e =>
      dsimp only
      by_cases he : e ∈ s.st.lv 0 ∧ e.1 ≤ target (.add r) none
      · rw [if_pos he]
        refine ⟨_, _, rfl, good_pure hi ht rfl rfl ⟨rfl, rfl, ?_⟩ rfl⟩
        obtain ⟨q, h1, h2⟩ := hi.core.key e he.1
        have h3 : s.st.heap e.2 = q.info := hi.core.info h1 (by rw [h2]; exact he.1)
        rw [h3, ← h2]
        show q.ptr + q.size ≤ r.ptr
        have h4 : q.ptr ≤ r.ptr := by rw [h2]; exact he.2
        have h5 := hf.2.1
        rcases h1 with h1 | ⟨t', h1⟩
        · have := hi.geo.spanLive t _ r (ops_eq ht) rfl q h1
          unfold Apart at this
          omega
        · obtain ⟨op', pc', g1, g2⟩ := thr_C h1
          obtain ⟨q', hq'⟩ := regs_span g2
          have g3 := regs_in_span (hi.geo.fit t' op' (ops_eq g1)) hq' g2
          have htt : t' ≠ t := by
            rintro rfl
            rw [ht] at g1
            cases g1
            cases g2
          have g4 := hi.geo.spans t' t op' _ q' r htt (ops_eq g1) (ops_eq ht) hq' rfl
          unfold Apart at g4
          omega
      · rw [if_neg he]
        exact ⟨_, _, rfl, good_pure hi ht rfl rfl ⟨rfl, rfl⟩ rfl⟩
  | addLoad lvl par k a =>
    obtain ⟨rfl, rfl, h1⟩ := hl
    unfold next
    dsimp only
    have : endOf s.st k a = k + (s.st.heap a).size := by
      have := hf.2.2
      exact Nat.mod_eq_of_lt (by rw [W_eq]; omega)
    rw [if_neg (by rw [this]; omega)]
    exact ⟨_, _, rfl, good_pure hi ht rfl rfl ⟨rfl, rfl⟩ rfl⟩
  | addAlloc lvl par =>
    obtain ⟨rfl, rfl⟩ := hl
    unfold next
    dsimp only
    by_cases hu : v.addr = 0 ∨ s.st.used v.addr = true
    · rw [if_pos hu]
      exact ⟨_, _, rfl, good_pure hi ht rfl rfl (Or.inr rfl) rfl⟩
    · rw [if_neg hu]
      exact ⟨_, _, rfl, good_alloc hi ht rfl hu rfl ⟨rfl, rfl, upd_same _ _ _⟩ rfl⟩
  | addInsert lvl par x =>
    obtain ⟨rfl, rfl, h1⟩ := hl
    unfold next
    dsimp only
    by_cases hok : v.ok = false
    · rw [if_pos hok]
      exact ⟨_, _, rfl, good_pure hi ht rfl rfl rfl rfl⟩
    · rw [if_neg hok]
      have hk : ∀ a, (r.ptr, a) ∉ s.st.lv 0 := by
        intro a ha
        obtain ⟨q, g1, g2⟩ := hi.core.key _ ha
        obtain ⟨k1, k2⟩ := key_other hi ht (q := r) rfl (Nat.le_refl _) (by have := hf.2.1; omega)
        rcases (reg_split (t := t)).1 g1 with (g1 | ⟨t', g1, g3⟩) | g1
        · exact k1 q g1 g2
        · exact k2 t' q g1 g3 g2
        · rw [Sys.C_eq ht] at g1
          cases g1
      rw [if_neg (fun h => by obtain ⟨a, ha⟩ := hasKey_iff.1 h; exact hk a ha)]
      refine ⟨_, _, rfl, good_insert hi ht (r := r) ?_ List.mem_cons_self ?_ h1 hk (Or.inl rfl) rfl⟩
      · intro p
        simp [regs]
      · simp [blocks]
  | addDrop x res =>
    have hl : res = .oom := hl
    subst hl
    exact ⟨_, _, rfl, good_free hi ht rfl List.mem_cons_self (by simp [blocks]) (fun _ => Or.inr rfl) rfl⟩
  | fin res => exact ⟨_, _, rfl, good_pure hi ht rfl rfl hl rfl⟩
  | _ => exact False.elim hl

theorem step_remove {r : Rec} (hi : Inv s) (ht : s.thr t = some (.remove r, pc)) :
    ∃ st' pc', next t (.remove r) s.st pc v = some (st', pc') ∧ Good s t (.remove r) pc v st' pc' := by
  have hl := hi.loc t _ _ ht
  have hf : r.Ok := hi.geo.fit t _ (ops_eq ht)
  cases pc with
  | start => exact ⟨_, _, rfl, good_pure hi ht rfl rfl ⟨rfl, rfl, rfl, rfl⟩ rfl⟩
  | seekFind x lo lvl par last =>
    obtain ⟨rfl, rfl, rfl, rfl⟩ := hl
    obtain ⟨a, ha, _⟩ := hi.core.reg r (reg_mine ht (by simp [regs]))
    unfold next
    dsimp only
    rw [show target (.remove r) none = r.ptr from rfl, find_mine hi ha]
    exact ⟨_, _, rfl, good_pure hi ht rfl rfl ⟨rfl, rfl, rfl, rfl, ha⟩ rfl⟩
  | seekLoad x lo lvl par k a =>
    obtain ⟨rfl, rfl, rfl, rfl, ha⟩ := hl
    unfold next
    dsimp only
    rw [if_pos (by rw [end_mine hi (reg_mine ht (by simp [regs])) hf ha]; have := hf.2.1; show r.ptr < _; omega)]
    exact ⟨_, _, rfl, good_pure hi ht rfl rfl ⟨rfl, rfl, rfl, rfl, ha⟩ rfl⟩
  | seekKids x lo lvl par k a =>
    obtain ⟨rfl, rfl, rfl, rfl, ha⟩ := hl
    unfold next
    dsimp only
    rw [if_neg (by rw [kids_mine hi (reg_mine ht (by simp [regs])) ha]; simp)]
    exact ⟨_, _, rfl, good_pure hi ht rfl rfl ⟨rfl, rfl, rfl, rfl, ha⟩ rfl⟩
  | seekMore x lo lvl par k a =>
    obtain ⟨rfl, rfl, rfl, rfl, ha⟩ := hl
    unfold next
    dsimp only
    rw [if_neg (by rw [kids_mine hi (reg_mine ht (by simp [regs])) ha]; simp)]
    exact ⟨_, _, rfl, good_pure hi ht rfl rfl ⟨rfl, rfl, rfl, rfl, ha⟩ rfl⟩
  | seekEnd x lo lvl par k a =>
    obtain ⟨rfl, rfl, rfl, rfl, ha⟩ := hl
    unfold next
    dsimp only
    rw [if_neg (by simp [target]), if_neg (by rw [kids_mine hi (reg_mine ht (by simp [regs])) ha]; simp)]
    exact ⟨_, _, rfl, good_pure hi ht rfl rfl ⟨rfl, rfl⟩ rfl⟩
  | remDelete lvl par =>
    obtain ⟨rfl, rfl⟩ := hl
    obtain ⟨a, ha, _⟩ := hi.core.reg r (reg_mine ht (by simp [regs]))
    unfold next
    dsimp only
    rw [show target (.remove r) none = r.ptr from rfl, look_some hi.core.uniq ha]
    refine ⟨_, _, rfl, good_del hi ht (q := r) ha ?_ rfl trivial rfl rfl (Nat.le_refl _) (by have := hf.2.1; omega)⟩
    intro p
    simp only [regs, List.not_mem_nil, List.mem_singleton, false_iff]
    rintro ⟨g1, rfl⟩
    exact g1 rfl
  | remFree a =>
    exact ⟨_, _, rfl, good_free hi ht rfl List.mem_cons_self (by simp [blocks]) (fun _ => rfl) rfl⟩
  | fin res => exact ⟨_, _, rfl, good_pure hi ht rfl rfl hl rfl⟩
  | _ => exact False.elim hl

/-- The regions a lookup is about are found. -/
theorem find_live (hi : Inv s) {r : Rec} {x : Nat} (hr : r ∈ s.live) (hx : r.has x) :
    ∃ a, (r.ptr, a) ∈ s.st.lv 0 ∧ findLe (s.st.lv 0) x = some (r.ptr, a) := by
  have hf := hi.geo.liveOk r hr
  obtain ⟨hx1, hx2⟩ := hx
  obtain ⟨a, ha, _⟩ := hi.core.reg r (Or.inl hr)
  refine ⟨a, ha, findLe_eq hi.core.uniq ha hx1 ?_⟩
  intro e he hle
  obtain ⟨q, h1, h2⟩ := hi.core.key e he
  rw [← h2] at hle ⊢
  rcases h1 with h1 | ⟨t', h1⟩
  · have hq := hi.geo.liveOk q h1
    unfold Rec.Ok at hq
    by_cases e1 : q = r
    · rw [e1]
      exact Nat.le_refl _
    · have : Apart q r ∨ Apart r q := by
        have hp := hi.geo.apart
        clear hq hle
        generalize s.live = L at hp h1 hr
        induction hp with
        | nil => cases h1
        | cons hd _ ih =>
          rcases List.mem_cons.1 h1 with h1 | h1 <;> rcases List.mem_cons.1 hr with hr | hr
          · exact absurd (h1.trans hr.symm) e1
          · rw [h1]; exact Or.inl (hd _ hr)
          · rw [hr]; exact Or.inr (hd _ h1)
          · exact ih h1 hr
      unfold Apart at this
      omega
  · obtain ⟨op', pc', g1, g2⟩ := thr_C h1
    obtain ⟨q', hq'⟩ := regs_span g2
    have g3 := regs_in_span (hi.geo.fit t' op' (ops_eq g1)) hq' g2
    have g4 := hi.geo.spanLive t' op' q' (ops_eq g1) hq' r hr
    unfold Apart at g4
    omega

theorem find_look (hi : Inv s) {r : Rec} {x : Nat} (ht : s.thr t = some (.look r x, pc)) :
    ∃ a, (r.ptr, a) ∈ s.st.lv 0 ∧ findLe (s.st.lv 0) x = some (r.ptr, a) :=
  find_live hi (hi.geo.seen t r x (ops_eq ht)) (hi.geo.fit t _ (ops_eq ht)).2

theorem step_look {r : Rec} {x : Nat} (hi : Inv s) (ht : s.thr t = some (.look r x, pc)) :
    ∃ st' pc', next t (.look r x) s.st pc v = some (st', pc') ∧ Good s t (.look r x) pc v st' pc' := by
  have hl := hi.loc t _ _ ht
  have hr := hi.geo.seen t r x (ops_eq ht)
  obtain ⟨hf, hx1, hx2⟩ := hi.geo.fit t _ (ops_eq ht)
  cases pc with
  | start => exact ⟨_, _, rfl, good_pure hi ht rfl rfl ⟨rfl, rfl⟩ rfl⟩
  | lkFind lvl top =>
    obtain ⟨rfl, rfl⟩ := hl
    obtain ⟨a, ha, e⟩ := find_look hi ht
    unfold next
    dsimp only
    rw [show target (.look r x) none = x from rfl, e]
    exact ⟨_, _, rfl, good_pure hi ht rfl rfl ⟨rfl, rfl, ha⟩ rfl⟩
  | lkLoad lvl top k a =>
    obtain ⟨rfl, rfl, ha⟩ := hl
    unfold next
    dsimp only
    rw [if_pos (by rw [end_mine hi (Or.inl hr) hf ha]; exact hx2)]
    exact ⟨_, _, rfl, good_pure hi ht rfl rfl ⟨rfl, rfl, ha⟩ rfl⟩
  | lkKids lvl k a =>
    obtain ⟨rfl, rfl, ha⟩ := hl
    unfold next
    dsimp only
    rw [if_pos (Or.inl (kids_mine hi (Or.inl hr) ha))]
    exact ⟨_, _, rfl, good_pure hi ht rfl rfl ⟨a, rfl, ha⟩ rfl⟩
  | lkEnd top =>
    obtain ⟨a, rfl, ha⟩ := hl
    refine ⟨_, _, rfl, good_pure hi ht rfl rfl ?_ rfl⟩
    show Res.found r.ptr (s.st.heap a).size (s.st.heap a).pool = .found r.ptr r.size r.pool
    rw [hi.core.info (Or.inl hr) ha]
    rfl
  | fin res => exact ⟨_, _, rfl, good_pure hi ht rfl rfl hl rfl⟩
  | _ => exact False.elim hl

end Verif.TrkConc
