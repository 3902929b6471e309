import Verif.Disjoint.ConcChunk
import Verif.Disjoint.ConcFit
/-! # Every step keeps the invariant -/
set_option linter.unusedSimpArgs false
namespace Verif.Disjoint.Conc
open Mem

section
variable {c : Cfg} {s s' : St} {home home' : Nat → Home} {t : Nat} {I : Option Nat}

/-- A slab is registered and put in the list. -/
theorem regOk_inv (hI : Inv c s home) {i id : Nat} {r : Req} {o : Obj}
    (hpc : s.pc t = .reg i r id) (ho : s.objs id = some o) (hkn : s.known o.base = none) :
    Inv c (((s.setKnown o.base (some id)).setBk i
        { s.bk i with avail := id :: (s.bk i).avail }).setPc t (.take i r)) home := by
  have hp := hI.pcs t
  rw [hpc] at hp
  obtain ⟨hfit, hz, hav, o1, g1, hbk, hhas, hus, hna, hnu⟩ := hp
  rw [ho] at g1; cases g1
  have hh := hI.heap
  have hO := hI.owners
  obtain ⟨hb1, hb2, hb3⟩ := hh.obj id o ho
  have hnc : 0 < numChunks c i := by unfold numChunks; omega
  obtain ⟨b, hb⟩ : ∃ b, b = { s.bk i with avail := id :: (s.bk i).avail } := ⟨_, rfl⟩
  have w1 : b.lock = (s.bk i).lock := by rw [hb]
  have w2 : b.pooled = (s.bk i).pooled := by rw [hb]
  have w3 : b.avail = id :: (s.bk i).avail := by rw [hb]
  have w4 : b.unavail = (s.bk i).unavail := by rw [hb]
  rw [← hb]
  clear hb
  have hkold : ∀ p x, s.known p = some x → Function.update s.known o.base (some id) p = some x := by
    intro p x h
    rw [upd_ne]
    · exact h
    · rintro rfl; rw [hkn] at h; cases h
  have hlist : ∀ j x, x ∈ (Function.update s.bk i b j).avail ∨
      x ∈ (Function.update s.bk i b j).unavail ↔
      (x = id ∧ j = i) ∨ x ∈ (s.bk j).avail ∨ x ∈ (s.bk j).unavail := by
    intro j x
    by_cases hj : j = i
    · subst hj; rw [upd_eq, w3, w4]; simp [or_assoc]
    · rw [upd_ne hj]; simp [hj]
  have hbi : Function.update s.bk i b i = b := upd_eq
  refine hI.next (t := t) (I := some i) ?_ ?_ hI.bad ?_ (Or.inl (by rw [hpc]; rfl)) ?_ ?_ ?_
  · refine ⟨hh.memOk, hh.memSep, hh.objLt, hh.obj, hh.objMem, hh.objInj, ?_, ?_, ?_, ?_, ?_⟩
    · intro p x h
      rcases upd_some h with ⟨rfl, rfl⟩ | ⟨_, h⟩
      · exact ⟨o, ho, rfl, hhas, (hlist _ _).2 (Or.inl ⟨rfl, hbk⟩)⟩
      · obtain ⟨o2, k1, k2, k3, k4⟩ := hh.known p x h
        exact ⟨o2, k1, k2, k3, (hlist _ _).2 (Or.inr k4)⟩
    · intro j x h
      rcases (hlist j x).1 h with ⟨rfl, rfl⟩ | h
      · exact ⟨o, ho, hbk, hhas, upd_eq⟩
      · obtain ⟨o2, k1, k2, k3, k4⟩ := hh.listed j x h
        exact ⟨o2, k1, k2, k3, hkold _ _ k4⟩
    · intro j
      show ((Function.update s.bk i b j).avail ++ (Function.update s.bk i b j).unavail).Nodup
      by_cases hj : j = i
      · subst hj
        rw [upd_eq, w3, w4, List.cons_append, List.nodup_cons]
        refine ⟨?_, hh.nodup j⟩
        intro h
        rcases List.mem_append.1 h with h | h
        · exact hna h
        · exact hnu h
      · rw [upd_ne hj]; exact hh.nodup j
    · intro j x ox h1 h2
      have h1 : x ∈ (Function.update s.bk i b j).avail := h1
      by_cases hj : j = i
      · subst hj
        rw [upd_eq, w3] at h1
        rcases List.mem_cons.1 h1 with rfl | h1
        · have h2 : s.objs x = some ox := h2
          rw [ho] at h2; cases h2
          rw [hb2, hbk, hus]; exact hnc
        · exact hh.av j x ox h1 h2
      · rw [upd_ne hj] at h1; exact hh.av j x ox h1 h2
    · intro j x ox h1 h2
      have h1 : x ∈ (Function.update s.bk i b j).unavail := h1
      by_cases hj : j = i
      · subst hj; rw [upd_eq, w4] at h1; exact hh.un j x ox h1 h2
      · rw [upd_ne hj] at h1; exact hh.un j x ox h1 h2
  · refine ⟨hO.lt, ?_, hO.injChunk, hO.injDirect, hO.full, hO.cover, hO.excl, hO.kind⟩
    intro n a h
    obtain ⟨g1, g2, g3⟩ := hO.ok n a h
    refine ⟨g1, g2, ?_⟩
    revert g3
    cases home n with
    | chunk id' k =>
      rintro ⟨o2, k1, k2, k3, k4⟩
      exact ⟨o2, k1, k2, hkold _ _ k3, k4⟩
    | direct => exact fun g3 => g3
  · refine ⟨fun u hu => upd_ne hu, fun j hj => upd_ne (fun e => hj (by rw [e])),
      fun _ _ _ _ _ => Iff.rfl, fun id o h _ => ⟨o, h, rfl⟩, fun id o h _ => ⟨o, h, rfl, rfl⟩,
      Nat.le_refl _, ?_, fun _ _ => rfl, Or.inr rfl⟩
    intro u _ n a h _
    exact ⟨a, h, rfl, rfl, fun h1 h2 => ⟨h1, h2⟩, fun h => h⟩
  · intro h; cases h
  · intro j hj
    cases hj
    show (Function.update s.bk i b i).pooled ≤ _ ∧ (_ ∨ (sec (Function.update s.pc t (.take i r) t) = _ ∧
      (Function.update s.bk i b i).lock = _))
    rw [hbi, w1, w2, upd_eq]
    exact ⟨hI.lim i, Or.inr ⟨rfl, (hI.lock i t).2 (by rw [hpc]; rfl)⟩⟩
  · show PcOk c _ _ t (Function.update s.pc t _ t)
    rw [upd_eq]
    refine ⟨hfit, ?_, ?_⟩
    · unfold zeros headEmpty
      show (Function.update s.bk i b i).pooled + (match (Function.update s.bk i b i).avail with
        | [] => 0
        | id :: _ => if isEmpty s id then 1 else 0) =
        (Function.update s.bk i b i).avail.countP (isEmpty s)
      rw [hbi, w2, w3, hz]
      simp only [List.countP_cons, zeros]
    · show (Function.update s.bk i b i).avail ≠ []
      rw [hbi, w3]; simp

/-- An empty slab is unregistered and taken out of the list. -/
theorem unreg_inv (hI : Inv c s home) {i id : Nat} {o : Obj}
    (hpc : s.pc t = .unreg id i) (ho : s.objs id = some o) :
    Inv c (((s.setKnown o.base .none).setBk i
        { s.bk i with avail := (s.bk i).avail.filter (· != id) }).setPc t (.drop id i true))
      home := by
  have hp := hI.pcs t
  rw [hpc] at hp
  obtain ⟨hmem, ⟨o1, g1, hus⟩, hz⟩ := hp
  rw [ho] at g1; cases g1
  have hh := hI.heap
  have hO := hI.owners
  obtain ⟨o1, g1, hbk, hhas, hkn⟩ := hh.listed i id (Or.inl hmem)
  rw [ho] at g1; cases g1
  obtain ⟨hb1, hb2, hb3⟩ := hh.obj id o ho
  have hcnt : o.free.count false = 0 := by rw [← hb3]; exact hus
  have hnu : id ∉ (s.bk i).unavail := fun h =>
    (List.nodup_append.1 (hh.nodup i)).2.2 id hmem id h rfl
  obtain ⟨b, hb⟩ : ∃ b, b = { s.bk i with avail := (s.bk i).avail.filter (· != id) } := ⟨_, rfl⟩
  have w1 : b.lock = (s.bk i).lock := by rw [hb]
  have w2 : b.pooled = (s.bk i).pooled := by rw [hb]
  have w3 : b.avail = (s.bk i).avail.filter (· != id) := by rw [hb]
  have w4 : b.unavail = (s.bk i).unavail := by rw [hb]
  rw [← hb]
  clear hb
  have hlist : ∀ j x, x ∈ (Function.update s.bk i b j).avail ∨
      x ∈ (Function.update s.bk i b j).unavail ↔
      x ≠ id ∧ (x ∈ (s.bk j).avail ∨ x ∈ (s.bk j).unavail) := by
    intro j x
    by_cases hj : j = i
    · subst hj
      rw [upd_eq, w3, w4]
      simp only [List.mem_filter, bne_iff_ne]
      constructor
      · rintro (⟨h1, h2⟩ | h)
        · exact ⟨h2, Or.inl h1⟩
        · exact ⟨fun e => hnu (by rw [← e]; exact h), Or.inr h⟩
      · rintro ⟨h1, h2 | h2⟩
        · exact Or.inl ⟨h2, h1⟩
        · exact Or.inr h2
    · rw [upd_ne hj]
      constructor
      · intro h
        refine ⟨?_, h⟩
        rintro rfl
        obtain ⟨o2, k1, k2, _⟩ := hh.listed j x h
        rw [ho] at k1; cases k1
        exact hj (by rw [← k2, hbk])
      · exact fun h => h.2
  have hkold : ∀ x ox, s.objs x = some ox → ox.has = true → x ≠ id → s.known ox.base = some x →
      Function.update s.known o.base none ox.base = some x := by
    intro x ox h1 h2 h3 h4
    rw [upd_ne]
    · exact h4
    · intro e; exact h3 (hh.objInj x ox id o h1 ho h2 hhas e)
  have hbi : Function.update s.bk i b i = b := upd_eq
  have hzz : b.pooled = b.avail.countP (isEmpty s) := by
    rw [w2, w3]
    unfold zeros at hz
    have hie : isEmpty s id = true := by rw [isEmpty_iff ho, hus]; rfl
    obtain ⟨l1, l2, hl⟩ := List.append_of_mem hmem
    have hn := (List.nodup_append.1 (hh.nodup i)).1
    rw [hl] at hn hz ⊢
    obtain ⟨n1, n2, n3⟩ := List.nodup_append.1 hn
    have i1 : l1.filter (· != id) = l1 := by
      rw [List.filter_eq_self]
      intro x hx
      simp only [bne_iff_ne]
      exact fun e => n3 x hx id (by simp) e
    have i2 : l2.filter (· != id) = l2 := by
      rw [List.filter_eq_self]
      intro x hx
      simp only [bne_iff_ne]
      rintro rfl
      exact (List.nodup_cons.1 n2).1 hx
    rw [List.countP_append, List.countP_cons, hie] at hz
    rw [List.filter_append, List.filter_cons, i1, i2, List.countP_append]
    simp at hz ⊢
    omega
  refine hI.next (t := t) (I := some i) ?_ ?_ hI.bad ?_ (Or.inl (by rw [hpc]; rfl)) ?_ ?_ ?_
  · refine ⟨hh.memOk, hh.memSep, hh.objLt, hh.obj, hh.objMem, hh.objInj, ?_, ?_, ?_, ?_, ?_⟩
    · intro p x h
      obtain ⟨hne, h⟩ := upd_none h
      obtain ⟨o2, k1, k2, k3, k4⟩ := hh.known p x h
      refine ⟨o2, k1, k2, k3, (hlist _ _).2 ⟨?_, k4⟩⟩
      rintro rfl
      rw [ho] at k1; cases k1
      exact hne k2.symm
    · intro j x h
      obtain ⟨hne, h⟩ := (hlist j x).1 h
      obtain ⟨o2, k1, k2, k3, k4⟩ := hh.listed j x h
      exact ⟨o2, k1, k2, k3, hkold x o2 k1 k3 hne k4⟩
    · intro j
      show ((Function.update s.bk i b j).avail ++ (Function.update s.bk i b j).unavail).Nodup
      by_cases hj : j = i
      · subst hj
        rw [upd_eq, w3, w4]
        exact (hh.nodup j).sublist (List.Sublist.append_right List.filter_sublist _)
      · rw [upd_ne hj]; exact hh.nodup j
    · intro j x ox h1 h2
      have h1 : x ∈ (Function.update s.bk i b j).avail := h1
      by_cases hj : j = i
      · subst hj
        rw [upd_eq, w3] at h1
        exact hh.av j x ox (List.mem_filter.1 h1).1 h2
      · rw [upd_ne hj] at h1; exact hh.av j x ox h1 h2
    · intro j x ox h1 h2
      have h1 : x ∈ (Function.update s.bk i b j).unavail := h1
      by_cases hj : j = i
      · subst hj; rw [upd_eq, w4] at h1; exact hh.un j x ox h1 h2
      · rw [upd_ne hj] at h1; exact hh.un j x ox h1 h2
  · refine ⟨hO.lt, ?_, hO.injChunk, hO.injDirect, hO.full, hO.cover, hO.excl, hO.kind⟩
    intro n a h
    obtain ⟨g1, g2, g3⟩ := hO.ok n a h
    refine ⟨g1, g2, ?_⟩
    revert g3
    cases home n with
    | chunk id' k =>
      rintro ⟨o2, k1, k2, k3, k4, k5⟩
      refine ⟨o2, k1, k2, hkold id' o2 k1 k2 ?_ k3, k4, k5⟩
      rintro rfl
      rw [ho] at k1; cases k1
      exact count_false_zero hcnt k4
    | direct => exact fun g3 => g3
  · refine ⟨fun u hu => upd_ne hu, fun j hj => upd_ne (fun e => hj (by rw [e])),
      fun _ _ _ _ _ => Iff.rfl, fun id o h _ => ⟨o, h, rfl⟩, fun id o h _ => ⟨o, h, rfl, rfl⟩,
      Nat.le_refl _, ?_, fun _ _ => rfl, Or.inr rfl⟩
    intro u _ n a h _
    exact ⟨a, h, rfl, rfl, fun h1 h2 => ⟨h1, h2⟩, fun h => h⟩
  · intro h; cases h
  · intro j hj
    cases hj
    show (Function.update s.bk i b i).pooled ≤ _ ∧
      (_ ∨ (sec (Function.update s.pc t (.drop id i true) t) = _ ∧
      (Function.update s.bk i b i).lock = _))
    rw [hbi, w1, w2, upd_eq]
    exact ⟨hI.lim i, Or.inr ⟨rfl, (hI.lock i t).2 (by rw [hpc]; rfl)⟩⟩
  · show PcOk c _ _ t (Function.update s.pc t _ t)
    rw [upd_eq]
    refine ⟨?_, o, ho, hbk, hhas, hus, ?_, ?_⟩
    · show (Function.update s.bk i b i).pooled = (Function.update s.bk i b i).avail.countP (isEmpty s)
      rw [hbi]; exact hzz
    · show id ∉ (Function.update s.bk i b i).avail
      rw [hbi, w3]; simp
    · show id ∉ (Function.update s.bk i b i).unavail
      rw [hbi, w4]; exact hnu

/-- The maps a lookup saw only hold slabs that existed. -/
theorem Inv.seen (hI : Inv c s home) {t0 : Nat} {m : Nat → Option Nat} (hm : m ∈ s.seen t0)
    {b id : Nat} (h : m b = some id) : id < s.next ∧ ∀ o, s.objs id = some o → o.base = b := by
  rcases List.mem_cons.1 hm with rfl | hm
  · obtain ⟨o, h1, h2, _⟩ := hI.heap.known b id h
    exact ⟨hI.heap.objLt id o h1, fun o2 h3 => by rw [h1] at h3; cases h3; exact h2⟩
  · exact hI.hist m (List.mem_of_mem_take hm) b id h

theorem Holds.own {tk ptr : Nat} {us : Bool} {a : Own} (h : Holds s t tk ptr us)
    (ha : s.own tk = some a) : a.ptr = ptr ∧
      if us then t ∈ a.readers ∧ a.freeing = none else a.freeing = some t := by
  obtain ⟨b, h1, h2⟩ := h
  rw [ha] at h1; cases h1; exact h2

/-- A direct allocation is known to the provider. -/
theorem Inv.direct_mem (hI : Inv c s home) {tk ptr : Nat} {us : Bool} (h : Holds s t tk ptr us)
    (hd : home tk = .direct) : ∃ a, s.own tk = some a ∧ a.ptr = ptr ∧ s.mem ptr = some a.size := by
  obtain ⟨a, h1, h2, _⟩ := h
  have := (hI.owners.ok tk a h1).2.2
  rw [hd] at this
  exact ⟨a, h1, h2, by rw [← h2]; exact this.1⟩

theorem zeros_setBk {i : Nat} {b : Bk} (h1 : s'.objs = s.objs) (h2 : s'.bk = Function.update s.bk i b)
    (h : b.avail = (s.bk i).avail) : zeros s' i = zeros s i :=
  zeros_congr h1 (by rw [h2, upd_eq, h])

theorem headEmpty_setBk {i : Nat} {b : Bk} (h1 : s'.objs = s.objs)
    (h2 : s'.bk = Function.update s.bk i b) (h : b.avail = (s.bk i).avail) :
    headEmpty s' i = headEmpty s i :=
  headEmpty_congr h1 (by rw [h2, upd_eq, h])

/-- A lookup of the address of a chunk finds its slab. -/
theorem Window.find {tk ptr t0 id k : Nat} {res : Option (Nat × Nat)}
    (hw : ∀ m ∈ s.seen t0, Window c s ptr m (home tk)) (hh : home tk = .chunk id k)
    (hf : FindOk (s.seen t0) ptr res) : ∃ b, res = some (b, id) := by
  rw [hh] at hw
  obtain ⟨o, ho, hle, -, -⟩ := hw s.known (List.mem_cons_self ..)
  obtain ⟨m, hm, id', h1, h2⟩ := hf.2 o.base hle (fun m hm => by
    obtain ⟨o2, k1, k2, k3, k4⟩ := hw m hm
    rw [ho] at k1; cases k1
    exact ⟨by rw [k3]; simp, k4⟩)
  obtain ⟨o2, k1, k2, k3, k4⟩ := hw m hm
  rw [ho] at k1; cases k1
  rw [k3] at h1; cases h1
  exact ⟨_, h2⟩

/-- A thread stops asking for the size of an allocation. -/
theorem Inv.doneReading (hI : Inv c s home) {tk : Nat} {a : Own} (ha : s.own tk = some a)
    (hn : a.freeing = none) (hs : sec (s.pc t) = none) :
    Inv c ((s.setOwn tk (some { a with readers := a.readers.erase t })).setPc t .idle) home := by
  refine hI.ownStep ha rfl rfl rfl (fun h => absurd hn h) ?_ ?_ hs rfl trivial
  · intro u hu _ hm
    exact ⟨(List.mem_erase_of_ne hu).2 hm, hn⟩
  · intro u _ h; exact h

/-- One step, whoever takes it. -/
theorem step_inv (hc : CfgOk c) (hI : Inv c s home) {e : Ev} (h : Step c t s e s') :
    ∃ home', Inv c s' home' := by
  have hp := hI.pcs t
  cases h with
  | call r h1 h2 h3 =>
    exact ⟨home, hI.setPc (by rw [h1, start_sec]; rfl) (start_ok hc h2 h3)⟩
  | directOk p h1 h2 => exact ⟨_, directOk_inv hI h1 h2⟩
  | directFail h1 => exact ⟨home, hI.setPc (by rw [h1]; rfl) trivial⟩
  | @lock i r h1 h2 h3 =>
    rw [h1] at hp
    refine ⟨home, hI.bkStep (b := { s.bk i with lock := some t }) (p := .get i r) s.total rfl rfl
      (Or.inr ⟨by rw [h1]; rfl, h3⟩) (Or.inr ⟨rfl, rfl⟩) (hI.lim i) ⟨hp, ?_⟩⟩
    show (Function.update s.bk i _ i).pooled = _
    rw [upd_eq]
    exact (hI.free i h3).trans (Eq.symm (zeros_setBk (by rfl) (by rfl) (by rfl)))
  | lockBad _ _ => exact ⟨home, hI.setUb⟩
  | getNoHost h1 h2 =>
    rw [h1] at hp
    exact ⟨home, hI.setPc (by rw [h1]; rfl) hp.2⟩
  | getNew h1 h2 =>
    rw [h1] at hp
    exact ⟨home, hI.setPc (by rw [h1]; rfl) ⟨hp.1, hp.2, h2⟩⟩
  | getUsed h1 h2 h3 h4 =>
    rw [h1] at hp
    refine ⟨home, hI.setPc (by rw [h1]; rfl) ⟨hp.1, ?_, by rw [h2]; simp⟩⟩
    unfold headEmpty
    rw [h2]
    dsimp only
    rw [isEmpty_iff h3, hp.2]
    simp [h4]
  | @getEmpty i r id rest o h1 h2 h3 h4 h5 =>
    rw [h1] at hp
    refine ⟨home, hI.bkStep (b := { s.bk i with pooled := (s.bk i).pooled - 1 }) (p := .take i r)
      _ rfl rfl (Or.inl (by rw [h1]; rfl))
      (Or.inr ⟨rfl, (hI.lock i t).2 (by rw [h1]; rfl)⟩)
      (by have := hI.lim i; show (s.bk i).pooled - 1 ≤ _; omega) ⟨hp.1, ?_, ?_⟩⟩
    · show (Function.update s.bk i _ i).pooled + _ = _
      rw [upd_eq]
      refine Eq.trans ?_ (Eq.symm (zeros_setBk (s := s) (by rfl) (by rfl) (by rfl)))
      refine Eq.trans (congrArg _ (headEmpty_setBk (s := s) (by rfl) (by rfl) (by rfl))) ?_
      rw [← hp.2]
      unfold headEmpty
      rw [h2]
      dsimp only
      rw [isEmpty_iff h3]
      simp [h4]
      omega
    · show (Function.update s.bk i _ i).avail ≠ []
      rw [upd_eq]
      show (s.bk i).avail ≠ []
      rw [h2]; simp
  | getEmptyBad _ _ _ _ _ => exact ⟨home, hI.setUb⟩
  | makeOk p h1 h2 => exact ⟨_, makeOk_inv hc hI h1 h2⟩
  | makeFail h1 =>
    rw [h1] at hp
    exact ⟨home, hI.setPc (by rw [h1]; rfl) hp.2.1⟩
  | regOk h1 h2 h3 => exact ⟨_, regOk_inv hI h1 h2 h3⟩
  | regFail h1 =>
    rw [h1] at hp
    exact ⟨home, hI.setPc (by rw [h1]; rfl) ⟨hp.2.1, hp.2.2.2⟩⟩
  | takeOk h1 h2 h3 h4 => exact ⟨_, takeOk_inv hI h1 h2 h3 h4⟩
  | takeBad _ _ _ _ => exact ⟨home, hI.setUb⟩
  | @unlock i fr h1 =>
    rw [h1] at hp
    exact ⟨home, hI.bkStep (b := { s.bk i with lock := none }) (p := .idle) s.total rfl rfl
      (Or.inl (by rw [h1]; rfl)) (Or.inl ⟨rfl, rfl, hp⟩) (hI.lim i) trivial⟩
  | drop h1 h2 => exact ⟨_, drop_inv hI h1 h2⟩
  | dropObj h1 => exact ⟨_, dropObj_inv hI h1⟩
  | @callFree tk a h1 h2 h3 h4 =>
    refine ⟨home, hI.ownStep h2 rfl rfl rfl (fun _ => h3)
      ?_ ?_ (by rw [h1]; rfl) rfl ⟨⟨_, upd_eq, rfl, rfl⟩, Nat.le_refl _, ?_⟩⟩
    · intro u _ _ hu; rw [h3] at hu; cases hu
    · intro u _ hu; rw [h4] at hu; cases hu
    · intro m hm
      have hm : m ∈ s.seen s.hist.length := hm
      unfold St.seen at hm
      rw [Nat.sub_self, List.take_zero, List.mem_singleton] at hm
      subst hm
      have := window_now hI.heap hI.owners h2
      revert this
      cases home tk <;> exact fun h => h
  | @callUsable tk a h1 h2 h3 =>
    refine ⟨home, hI.ownStep h2 rfl rfl rfl (fun h => absurd h3 h)
      ?_ ?_ (by rw [h1]; rfl) rfl ⟨⟨_, upd_eq, rfl, List.mem_cons_self .., h3⟩, Nat.le_refl _, ?_⟩⟩
    · intro u _ _ hu; exact ⟨List.mem_cons_of_mem _ hu, h3⟩
    · intro u _ hu; exact hu
    · intro m hm
      have hm : m ∈ s.seen s.hist.length := hm
      unfold St.seen at hm
      rw [Nat.sub_self, List.take_zero, List.mem_singleton] at hm
      subst hm
      have := window_now hI.heap hI.owners h2
      revert this
      cases home tk <;> exact fun h => h
  | @findNone tk ptr t0 us h1 h2 =>
    rw [h1] at hp
    obtain ⟨g1, g2, g3⟩ := hp
    refine ⟨home, hI.setPc (by rw [h1]; rfl) ⟨g1, ?_⟩⟩
    cases hh : home tk with
    | direct => rfl
    | chunk id k =>
      obtain ⟨b, h⟩ := Window.find g3 hh h2
      cases h
  | @findSome tk ptr t0 us b id h1 h2 =>
    rw [h1] at hp
    obtain ⟨g1, g2, g3⟩ := hp
    obtain ⟨hle, m, hm, hmb⟩ := h2.1 b id rfl
    refine ⟨home, hI.setPc (by rw [h1]; rfl) ⟨g1, (hI.seen hm hmb).1, ?_⟩⟩
    cases hh : home tk with
    | chunk id' k =>
      obtain ⟨b', h⟩ := Window.find g3 hh h2
      cases h; rfl
    | direct =>
      intro o ho
      have hw := g3 m hm
      rw [hh] at hw
      rw [(hI.seen hm hmb).2 o ho]
      exact hw b id hmb hle
  | readBad _ _ => exact ⟨home, hI.setUb⟩
  | @readPast tk ptr id us o h1 h2 h3 =>
    rw [h1] at hp
    obtain ⟨g1, g2, g3⟩ := hp
    refine ⟨home, hI.setPc (by rw [h1]; rfl) ⟨g1, ?_⟩⟩
    cases hh : home tk with
    | direct => rfl
    | chunk id' k =>
      rw [hh] at g3
      obtain ⟨a, k1, k2, -⟩ := g1
      have := (hI.owners.ok tk a k1).2.2
      rw [hh] at this
      obtain ⟨o2, j1, j2, j3, j4, j5, j6, j7⟩ := this
      have g3 : id = id' := g3
      rw [← g3, h2] at j1; cases j1
      unfold slabEnd at h3
      omega
  | @readFree tk ptr id o h1 h2 h3 =>
    rw [h1] at hp
    obtain ⟨g1, g2, g3⟩ := hp
    refine ⟨home, hI.setPc (by rw [h1]; rfl) ⟨g1, ?_⟩⟩
    cases hh : home tk with
    | chunk id' k =>
      rw [hh] at g3
      have g3 : id = id' := g3
      subst g3
      exact ⟨k, rfl, o, h2, rfl⟩
    | direct =>
      rw [hh] at g3
      have := g3 o h2
      unfold slabEnd at h3
      omega
  | readUsable h1 h2 h3 h4 =>
    rw [h1] at hp
    exact ⟨home, hI.doneReading h4 (hp.1.own h4).2.2 (by rw [h1]; rfl)⟩
  | infoFree h1 h2 =>
    rw [h1] at hp
    exact ⟨home, hI.setPc (by rw [h1]; rfl) ⟨hp.1, hp.2, h2⟩⟩
  | infoUsable h1 h2 h3 =>
    rw [h1] at hp
    exact ⟨home, hI.doneReading h3 (hp.1.own h3).2.2 (by rw [h1]; rfl)⟩
  | infoInside h1 h2 _ _ _ =>
    rw [h1] at hp
    obtain ⟨a, _, _, h⟩ := hI.direct_mem hp.1 hp.2
    rw [h2] at h; cases h
  | infoInsideUsable h1 h2 _ _ _ =>
    rw [h1] at hp
    obtain ⟨a, _, _, h⟩ := hI.direct_mem hp.1 hp.2
    rw [h2] at h; cases h
  | infoNone h1 h2 _ =>
    rw [h1] at hp
    obtain ⟨a, _, _, h⟩ := hI.direct_mem hp.1 hp.2
    rw [h2] at h; cases h
  | infoNoneUsable h1 h2 _ =>
    rw [h1] at hp
    obtain ⟨a, _, _, h⟩ := hI.direct_mem hp.1 hp.2
    rw [h2] at h; cases h
  | pfree h1 => exact ⟨_, pfree_inv hI h1⟩
  | @flock tk ptr id i h1 h2 =>
    rw [h1] at hp
    refine ⟨home, hI.bkStep (b := { s.bk i with lock := some t }) (p := .chunk tk ptr id i) s.total
      rfl rfl (Or.inr ⟨by rw [h1]; rfl, h2⟩) (Or.inr ⟨rfl, rfl⟩) (hI.lim i) ⟨?_, hp⟩⟩
    show (Function.update s.bk i _ i).pooled = _
    rw [upd_eq]
    exact (hI.free i h2).trans (Eq.symm (zeros_setBk (by rfl) (by rfl) (by rfl)))
  | chunkOk h1 h2 => exact ⟨_, chunkOk_inv hc hI h1 h2⟩
  | chunkBad _ _ => exact ⟨home, hI.setUb⟩
  | add h1 =>
    rw [h1] at hp
    exact ⟨home, hI.pcStep _ (by rw [h1]; rfl) hp⟩
  | @keep id i prev h1 h2 =>
    rw [h1] at hp
    refine ⟨home, hI.bkStep (b := { s.bk i with pooled := (s.bk i).pooled + 1 }) (p := .fin i true)
      s.total rfl rfl (Or.inl (by rw [h1]; rfl))
      (Or.inr ⟨rfl, (hI.lock i t).2 (by rw [h1]; rfl)⟩) hp.2 ?_⟩
    show (Function.update s.bk i _ i).pooled = _
    rw [upd_eq]
    exact hp.1.2.2.trans (Eq.symm (zeros_setBk (by rfl) (by rfl) (by rfl)))
  | exceed h1 h2 => 
    rw [h1] at hp
    exact ⟨home, hI.setPc (by rw [h1]; rfl) hp.1⟩
  | back h1 =>
    rw [h1] at hp
    exact ⟨home, hI.pcStep _ (by rw [h1]; rfl) hp⟩
  | unreg h1 h2 => exact ⟨_, unreg_inv hI h1 h2⟩

theorem init_inv : Inv c initSt (fun _ => .direct) := by
  refine ⟨⟨?_, ?_, ?_, ?_, ?_, ?_, ?_, ?_, ?_, ?_, ?_⟩, ⟨?_, ?_, ?_, ?_, ?_, ?_, ?_, ?_⟩, rfl, ?_, ?_,
    ?_, ?_, ?_⟩ <;> simp [initSt, sec, zeros, PcOk]

theorem reach_inv (hc : CfgOk c) (h : Reach c s) : ∃ home, Inv c s home := by
  induction h with
  | init => exact ⟨_, init_inv⟩
  | step _ _ hs ih =>
    obtain ⟨home, ih⟩ := ih
    exact step_inv hc ih hs
  | others T _ ih =>
    obtain ⟨home, ih⟩ := ih
    exact ⟨home, ih.others T⟩

end

end Verif.Disjoint.Conc
