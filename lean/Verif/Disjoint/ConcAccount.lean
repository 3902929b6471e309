import Verif.Disjoint.ConcSteps
/-! # Every slab is in a list or in the hands of a thread -/
set_option linter.unusedSimpArgs false
namespace Verif.Disjoint.Conc
open Mem

/-- The slab object a thread has created or taken out of the list. -/
def hand : Pc → Option Nat
  | .reg _ _ id => some id
  | .drop id _ _ => some id
  | .dropObj id _ _ => some id
  | _ => none

/-- The slab is in a list of its bucket. -/
def Listed (s : St) (id i : Nat) : Prop := id ∈ (s.bk i).avail ∨ id ∈ (s.bk i).unavail

def Accounted (s : St) : Prop :=
  ∀ id o, s.objs id = some o → Listed s id o.bkt ∨ ∃ t, hand (s.pc t) = some id

section
variable {c : Cfg} {s s' : St} {home home' : Nat → Home} {t : Nat} {I : Option Nat}

theorem Accounted.next (h : Accounted s) (hp : ∀ u, u ≠ t → s'.pc u = s.pc u)
    (ho : ∀ id o', s'.objs id = some o' → (∃ o, s.objs id = some o ∧ o.bkt = o'.bkt) ∨
      hand (s'.pc t) = some id)
    (hl : ∀ id i o', s'.objs id = some o' → Listed s id i → Listed s' id i ∨ hand (s'.pc t) = some id)
    (hh : ∀ id o', hand (s.pc t) = some id → s'.objs id = some o' →
      Listed s' id o'.bkt ∨ hand (s'.pc t) = some id) : Accounted s' := by
  intro id o' h'
  rcases ho id o' h' with ⟨o, h1, h2⟩ | h1
  · rcases h id o h1 with h3 | ⟨u, h3⟩
    · rw [h2] at h3
      rcases hl id o'.bkt o' h' h3 with h4 | h4
      · exact Or.inl h4
      · exact Or.inr ⟨t, h4⟩
    · by_cases hu : u = t
      · subst hu
        rcases hh id o' h3 h' with h4 | h4
        · exact Or.inl h4
        · exact Or.inr ⟨u, h4⟩
      · exact Or.inr ⟨u, by rw [hp u hu]; exact h3⟩
  · exact Or.inr ⟨t, h1⟩

/-- Steps that leave slabs and lists alone. -/
theorem Accounted.same (h : Accounted s) (e1 : s'.objs = s.objs)
    (e2 : ∀ j, (s'.bk j).avail = (s.bk j).avail ∧ (s'.bk j).unavail = (s.bk j).unavail)
    (hp : ∀ u, u ≠ t → s'.pc u = s.pc u)
    (hh : ∀ id, hand (s.pc t) = some id → hand (s'.pc t) = some id) : Accounted s' := by
  refine h.next hp (fun id o' h => Or.inl ⟨o', by rw [← e1]; exact h, rfl⟩) ?_
    (fun id _ h _ => Or.inr (hh id h))
  intro id i _ _ hl
  left
  unfold Listed
  rw [(e2 i).1, (e2 i).2]; exact hl

theorem Accounted.setPc (h : Accounted s) {p : Pc} (hh : hand (s.pc t) = none) :
    Accounted (s.setPc t p) :=
  h.same (t := t) rfl (fun _ => ⟨rfl, rfl⟩) (fun _ hu => upd_ne hu)
    (fun id hid => by rw [hh] at hid; cases hid)

theorem Accounted.ub (h : Accounted s) : Accounted { s with ub := true } := h

theorem Accounted.setBk (h : Accounted s) {i : Nat} {b : Bk} {p : Pc} {T : Nat}
    (e1 : b.avail = (s.bk i).avail) (e2 : b.unavail = (s.bk i).unavail)
    (hh : hand (s.pc t) = none) : Accounted { (s.setBk i b).setPc t p with total := T } := by
  refine h.same (t := t) rfl (fun j => ?_) (fun _ hu => upd_ne hu)
    (fun id hid => by rw [hh] at hid; cases hid)
  show (Function.update s.bk i b j).avail = _ ∧ (Function.update s.bk i b j).unavail = _
  by_cases hj : j = i
  · subst hj; rw [upd_eq]; exact ⟨e1, e2⟩
  · rw [upd_ne hj]; exact ⟨rfl, rfl⟩

/-- Steps on the chunks of a slab. -/
theorem Accounted.setObj (h : Accounted s) {id i : Nat} {o o' : Obj} {b : Bk}
    (ho : s.objs id = some o) (e : o'.bkt = o.bkt)
    (hm : ∀ x, x ∈ (s.bk i).avail ∨ x ∈ (s.bk i).unavail → x ∈ b.avail ∨ x ∈ b.unavail)
    (f1 : s'.objs = Function.update s.objs id (some o')) (f2 : s'.bk = Function.update s.bk i b)
    (hp : ∀ u, u ≠ t → s'.pc u = s.pc u) (hh : hand (s.pc t) = none) : Accounted s' := by
  refine h.next hp ?_ ?_ (fun _ _ h => by rw [hh] at h; cases h)
  · intro x ox hx
    rw [f1] at hx
    rcases upd_some hx with ⟨rfl, rfl⟩ | ⟨_, hx⟩
    · exact Or.inl ⟨o, ho, e.symm⟩
    · exact Or.inl ⟨ox, hx, rfl⟩
  · intro x j _ _ hl
    left
    unfold Listed at *
    rw [f2]
    by_cases hj : j = i
    · subst hj; rw [upd_eq]; exact hm x hl
    · rw [upd_ne hj]; exact hl

theorem step_accounted (hI : Inv c s home) (hA : Accounted s) {e : Ev} (h : Step c t s e s') :
    Accounted s' := by
  have hp := hI.pcs t
  cases h with
  | call r h1 h2 h3 => exact hA.setPc (by rw [h1]; rfl)
  | directOk p h1 h2 =>
    exact hA.same (t := t) rfl (fun _ => ⟨rfl, rfl⟩) (fun _ hu => upd_ne hu)
      (fun id hid => by rw [h1] at hid; cases hid)
  | directFail h1 => exact hA.setPc (by rw [h1]; rfl)
  | lock h1 h2 h3 => exact hA.setBk rfl rfl (by rw [h1]; rfl)
  | lockBad _ _ => exact hA
  | getNoHost h1 h2 => exact hA.setPc (by rw [h1]; rfl)
  | getNew h1 h2 => exact hA.setPc (by rw [h1]; rfl)
  | getUsed h1 h2 h3 h4 => exact hA.setPc (by rw [h1]; rfl)
  | getEmpty h1 h2 h3 h4 h5 => exact hA.setBk rfl rfl (by rw [h1]; rfl)
  | getEmptyBad _ _ _ _ _ => exact hA
  | makeOk p h1 h2 =>
    refine hA.next (t := t) (fun _ hu => upd_ne hu) ?_ (fun _ _ _ _ h => Or.inl h)
      (fun _ _ h => by rw [h1] at h; cases h)
    intro x ox hx
    rcases upd_some hx with ⟨rfl, rfl⟩ | ⟨_, hx⟩
    · right
      show hand (Function.update s.pc t _ t) = _
      rw [upd_eq]; rfl
    · exact Or.inl ⟨ox, hx, rfl⟩
  | makeFail h1 => exact hA.setPc (by rw [h1]; rfl)
  | @regOk i r id o h1 h2 h3 =>
    rw [h1] at hp
    obtain ⟨-, -, -, o1, g1, hbk, -⟩ := hp
    rw [h2] at g1; cases g1
    refine hA.next (t := t) (fun _ hu => upd_ne hu) (fun _ ox h => Or.inl ⟨ox, h, rfl⟩) ?_ ?_
    · intro x j _ _ hl
      left
      show x ∈ (Function.update s.bk i _ j).avail ∨ x ∈ (Function.update s.bk i _ j).unavail
      by_cases hj : j = i
      · subst hj; rw [upd_eq]
        rcases hl with hl | hl
        · exact Or.inl (List.mem_cons_of_mem _ hl)
        · exact Or.inr hl
      · rw [upd_ne hj]; exact hl
    · intro x ox hx hox
      rw [h1] at hx; cases hx
      have hox : s.objs id = some ox := hox
      rw [h2] at hox; cases hox
      left; left
      show id ∈ (Function.update s.bk i _ o.bkt).avail
      rw [hbk, upd_eq]; exact List.mem_cons_self ..
  | regFail h1 =>
    refine hA.same (t := t) rfl (fun _ => ⟨rfl, rfl⟩) (fun _ hu => upd_ne hu) (fun x hx => ?_)
    rw [h1] at hx; cases hx
    show hand (Function.update s.pc t _ t) = _
    rw [upd_eq]; rfl
  | @takeOk i r id rest o k h1 h2 h3 h4 =>
    refine hA.setObj (t := t) (i := i) h3 (o' := { o with free := o.free.set k false, used := o.used + 1 })
      rfl ?_ rfl (b := { (if o.used + 1 < (o.free.set k false).length then s.bk i
        else { s.bk i with avail := rest, unavail := id :: (s.bk i).unavail }) with lock := none })
      ?_ (fun _ hu => upd_ne hu) (by rw [h1]; rfl)
    · intro x hx
      by_cases hlt : o.used + 1 < (o.free.set k false).length
      · rw [if_pos hlt]; exact hx
      · rw [if_neg hlt]
        rw [h2] at hx
        simp only [List.mem_cons] at hx ⊢
        tauto
    · simp only [St.setOwn, St.setLock, takeChunk, St.setBk, St.setObj, Function.update_self,
        Function.update_idem]
  | takeBad _ _ _ _ => exact hA
  | unlock h1 => exact hA.setBk rfl rfl (by rw [h1]; rfl)
  | @drop id i fr o h1 h2 =>
    have hobj : (s.provFree o.base (slabSize c i)).objs = s.objs := by
      unfold St.provFree; split <;> rfl
    have hbk : (s.provFree o.base (slabSize c i)).bk = s.bk := by
      unfold St.provFree; split <;> rfl
    have hpc : (s.provFree o.base (slabSize c i)).pc = s.pc := by
      unfold St.provFree; split <;> rfl
    refine hA.next (t := t) (fun u hu => ?_) ?_ ?_ ?_
    · show Function.update (s.provFree o.base (slabSize c i)).pc t _ u = _
      rw [upd_ne hu, hpc]
    · intro x ox hx
      have hx : Function.update (s.provFree o.base (slabSize c i)).objs id _ x = _ := hx
      rw [hobj] at hx
      rcases upd_some hx with ⟨rfl, rfl⟩ | ⟨_, hx⟩
      · exact Or.inl ⟨o, h2, rfl⟩
      · exact Or.inl ⟨ox, hx, rfl⟩
    · intro x j _ _ hl
      left
      show x ∈ ((s.provFree o.base (slabSize c i)).bk j).avail ∨ x ∈ ((s.provFree _ _).bk j).unavail
      rw [hbk]; exact hl
    · intro x ox hx _
      rw [h1] at hx; cases hx
      right
      show hand (Function.update (s.provFree o.base (slabSize c i)).pc t _ t) = _
      rw [upd_eq]; rfl
  | @dropObj id i fr h1 =>
    refine hA.next (t := t) (fun u hu => upd_ne hu)
      (fun x ox hx => Or.inl ⟨ox, (upd_none hx).2, rfl⟩) (fun _ _ _ _ h => Or.inl h) ?_
    intro x ox hx hox
    rw [h1] at hx; cases hx
    exact absurd rfl (upd_none hox).1
  | callFree h1 h2 h3 h4 =>
    exact hA.same (t := t) rfl (fun _ => ⟨rfl, rfl⟩) (fun _ hu => upd_ne hu)
      (fun id hid => by rw [h1] at hid; cases hid)
  | callUsable h1 h2 h3 =>
    exact hA.same (t := t) rfl (fun _ => ⟨rfl, rfl⟩) (fun _ hu => upd_ne hu)
      (fun id hid => by rw [h1] at hid; cases hid)
  | findNone h1 h2 => exact hA.setPc (by rw [h1]; rfl)
  | findSome b id h1 h2 => exact hA.setPc (by rw [h1]; rfl)
  | readBad _ _ => exact hA
  | readPast h1 h2 h3 => exact hA.setPc (by rw [h1]; rfl)
  | readFree h1 h2 h3 => exact hA.setPc (by rw [h1]; rfl)
  | readUsable h1 h2 h3 h4 =>
    exact hA.same (t := t) rfl (fun _ => ⟨rfl, rfl⟩) (fun _ hu => upd_ne hu)
      (fun id hid => by rw [h1] at hid; cases hid)
  | infoFree h1 h2 => exact hA.setPc (by rw [h1]; rfl)
  | infoUsable h1 h2 h3 =>
    exact hA.same (t := t) rfl (fun _ => ⟨rfl, rfl⟩) (fun _ hu => upd_ne hu)
      (fun id hid => by rw [h1] at hid; cases hid)
  | infoInside h1 h2 _ _ _ => exact hA.setPc (by rw [h1]; rfl)
  | infoInsideUsable h1 h2 _ _ _ => exact hA.setPc (by rw [h1]; rfl)
  | infoNone h1 h2 _ => exact hA.setPc (by rw [h1]; rfl)
  | infoNoneUsable h1 h2 _ => exact hA.setPc (by rw [h1]; rfl)
  | @pfree tk ptr z h1 =>
    have hobj : (s.provFree ptr z).objs = s.objs := by unfold St.provFree; split <;> rfl
    have hbk : (s.provFree ptr z).bk = s.bk := by unfold St.provFree; split <;> rfl
    have hpc : (s.provFree ptr z).pc = s.pc := by unfold St.provFree; split <;> rfl
    refine hA.same (t := t) hobj (fun j => ?_) (fun u hu => ?_)
      (fun id hid => by rw [h1] at hid; cases hid)
    · show ((s.provFree ptr z).bk j).avail = _ ∧ ((s.provFree ptr z).bk j).unavail = _
      rw [hbk]; exact ⟨rfl, rfl⟩
    · show Function.update (s.provFree ptr z).pc t _ u = _
      rw [upd_ne hu, hpc]
  | flock h1 h2 => exact hA.setBk rfl rfl (by rw [h1]; rfl)
  | @chunkOk tk ptr id i o h1 h2 =>
    refine hA.setObj (t := t) h2 (i := i)
      (o' := { o with free := o.free.set ((ptr - o.base) / csize c i) true, used := o.used - 1 })
      rfl ?_ rfl rfl (fun _ hu => upd_ne hu) (by rw [h1]; rfl)
    intro x hx
    dsimp only
    split
    · by_cases hxi : x = id
      · subst hxi; exact Or.inl (List.mem_cons_self ..)
      · rcases hx with hx | hx
        · exact Or.inl (List.mem_cons_of_mem _ hx)
        · exact Or.inr (List.mem_filter.2 ⟨hx, by simp [hxi]⟩)
    · exact hx
  | chunkBad _ _ => exact hA
  | add h1 =>
    exact hA.same (t := t) rfl (fun _ => ⟨rfl, rfl⟩) (fun _ hu => upd_ne hu)
      (fun id hid => by rw [h1] at hid; cases hid)
  | keep h1 h2 => exact hA.setBk rfl rfl (by rw [h1]; rfl)
  | exceed h1 h2 => exact hA.setPc (by rw [h1]; rfl)
  | back h1 =>
    exact hA.same (t := t) rfl (fun _ => ⟨rfl, rfl⟩) (fun _ hu => upd_ne hu)
      (fun id hid => by rw [h1] at hid; cases hid)
  | @unreg id i o h1 h2 =>
    refine hA.next (t := t) (fun _ hu => upd_ne hu) (fun _ ox h => Or.inl ⟨ox, h, rfl⟩) ?_
      (fun _ _ h => by rw [h1] at h; cases h)
    intro x j _ _ hl
    by_cases hx : x = id
    · right
      show hand (Function.update s.pc t _ t) = _
      rw [upd_eq, hx]; rfl
    · left
      show x ∈ (Function.update s.bk i _ j).avail ∨ x ∈ (Function.update s.bk i _ j).unavail
      by_cases hj : j = i
      · subst hj; rw [upd_eq]
        rcases hl with hl | hl
        · exact Or.inl (List.mem_filter.2 ⟨hl, by simp [hx]⟩)
        · exact Or.inr hl
      · rw [upd_ne hj]; exact hl

theorem reach_full (hc : CfgOk c) (h : Reach c s) : ∃ home, Inv c s home ∧ Accounted s := by
  induction h with
  | init => exact ⟨_, init_inv, fun id o h => by cases h⟩
  | step _ _ hs ih =>
    obtain ⟨home, ih, hA⟩ := ih
    obtain ⟨home', h⟩ := step_inv hc ih hs
    exact ⟨home', h, step_accounted ih hA hs⟩
  | others T _ ih =>
    obtain ⟨home, ih, hA⟩ := ih
    exact ⟨home, ih.others T, hA⟩

end

end Verif.Disjoint.Conc
