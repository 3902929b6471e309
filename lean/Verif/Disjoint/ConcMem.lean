import Verif.Disjoint.ConcSimple
/-! # Steps that obtain memory from the provider or return it -/
set_option linter.unusedSimpArgs false
namespace Verif.Disjoint.Conc
open Mem

section
variable {c : Cfg} {s s' : St} {home home' : Nat → Home} {t : Nat} {I : Option Nat}

theorem upd_ne {β : Type _} {f : Nat → β} {a x : Nat} {v : β} (h : x ≠ a) :
    Function.update f a v x = f x := Function.update_of_ne h ..

theorem upd_eq {β : Type _} {f : Nat → β} {a : Nat} {v : β} : Function.update f a v a = v :=
  Function.update_self ..

theorem upd_some {β : Type _} {f : Nat → Option β} {a x : Nat} {v w : β}
    (h : Function.update f a (some v) x = some w) : (x = a ∧ w = v) ∨ (x ≠ a ∧ f x = some w) := by
  by_cases hx : x = a
  · subst hx; rw [upd_eq] at h; exact Or.inl ⟨rfl, (Option.some.inj h).symm⟩
  · rw [upd_ne hx] at h; exact Or.inr ⟨hx, h⟩

theorem upd_none {β : Type _} {f : Nat → Option β} {a x : Nat} {w : β}
    (h : Function.update f a none x = some w) : x ≠ a ∧ f x = some w := by
  by_cases hx : x = a
  · subst hx; rw [upd_eq] at h; cases h
  · rw [upd_ne hx] at h; exact ⟨hx, h⟩

/-- Memory the provider returns is not memory the pool has. -/
theorem Fresh.ne {p size al q z : Nat} (hf : Fresh c s p size al) (hh : Heap c s) (h0 : 0 < size)
    (hq : s.mem q = some z) : q ≠ p := by
  rintro rfl
  have := hf.2.2.1 q z hq
  have := (hh.memOk q z hq).2.1
  omega

/-- Slab objects other than the new one have their memory. -/
theorem Heap.addMem (hh : Heap c s) {p size al : Nat} (hf : Fresh c s p size al) (h0 : 0 < size) :
    (∀ q z, Function.update s.mem p (some size) q = some z → 0 < q ∧ 0 < z ∧ q + z < 2 ^ 64) ∧
    (∀ q z r w, Function.update s.mem p (some size) q = some z →
      Function.update s.mem p (some size) r = some w → q ≠ r → q + z ≤ r ∨ r + w ≤ q) ∧
    ∀ q z, s.mem q = some z → Function.update s.mem p (some size) q = some z := by
  refine ⟨fun q z h => ?_, fun q z r w h1 h2 hne => ?_, fun q z h => ?_⟩
  · rcases upd_some h with ⟨rfl, rfl⟩ | ⟨_, h⟩
    · exact ⟨hf.1, h0, hf.2.1⟩
    · exact hh.memOk q z h
  · rcases upd_some h1 with ⟨e1, e2⟩ | ⟨_, g1⟩ <;> rcases upd_some h2 with ⟨e3, e4⟩ | ⟨_, g2⟩
    · omega
    · have := hf.2.2.1 r w g2; omega
    · have := hf.2.2.1 q z g1; omega
    · exact hh.memSep q z r w g1 g2 hne
  · rw [upd_ne (hf.ne hh h0 h)]; exact h

/-- The provider serves a request directly. -/
theorem directOk_inv (hI : Inv c s home) {r : Req} (hpc : s.pc t = .direct r) {p : Nat}
    (hfr : Fresh c s p r.size (upAl r)) :
    Inv c { (s.setMem p (some r.size)).setOwn s.tickets
        (some ⟨p, r.size, r.al, [], none⟩) with
        tickets := s.tickets + 1, pc := Function.update s.pc t .idle }
      (Function.update home s.tickets .direct) := by
  have hp := hI.pcs t
  rw [hpc] at hp
  obtain ⟨h0, hal, hkd⟩ := hp
  have hh := hI.heap
  have hO := hI.owners
  obtain ⟨m1, m2, m3⟩ := hh.addMem hfr h0
  have hlt : ∀ n a, s.own n = some a → n ≠ s.tickets := fun n a h => by
    have := hO.lt n a h; omega
  have hdis : ∀ id o, s.objs id = some o → o.has = true → o.base ≠ p := fun id o h1 h2 =>
    hfr.ne hh h0 (hh.objMem id o h1 h2).1
  refine hI.next (t := t) (I := none) ?_ ?_ hI.bad ?_ (Or.inl (by rw [hpc]; rfl)) ?_ ?_ ?_
  · exact ⟨m1, m2, hh.objLt, hh.obj, fun id o h1 h2 =>
      ⟨m3 _ _ (hh.objMem id o h1 h2).1, (hh.objMem id o h1 h2).2⟩, hh.objInj, hh.known, hh.listed,
      hh.nodup, hh.av, hh.un⟩
  · refine ⟨?_, ?_, ?_, ?_, ?_, ?_, ?_, ?_⟩
    · intro n a h
      show n < s.tickets + 1
      rcases upd_some h with ⟨rfl, _⟩ | ⟨_, h⟩
      · omega
      · have := hO.lt n a h; omega
    · intro n a h
      show _ ∧ _ ∧ OwnOk c _ a (Function.update home s.tickets .direct n)
      rcases upd_some h with ⟨rfl, rfl⟩ | ⟨hne, h⟩
      · refine ⟨h0, fun hn => ?_, ?_⟩
        · rcases hal with h | h
          · have : r.al = 1 := by simp only at hn; omega
            rw [this]; exact Nat.one_dvd _
          · have := hfr.2.2.2.2
            rw [h] at this; exact this hn
        · rw [upd_eq]; exact ⟨upd_eq, fun id o h1 h2 => hdis id o h1 h2⟩
      · rw [upd_ne hne]
        obtain ⟨g1, g2, g3⟩ := hO.ok n a h
        refine ⟨g1, g2, ?_⟩
        revert g3
        cases home n with
        | chunk id k => exact fun g3 => g3
        | direct => exact fun g3 => ⟨m3 _ _ g3.1, g3.2⟩
    · intro n m a b id k h1 h2 h3 h4
      have h3 : Function.update home s.tickets .direct n = _ := h3
      have h4 : Function.update home s.tickets .direct m = _ := h4
      rcases upd_some h1 with ⟨rfl, rfl⟩ | ⟨hne, h1⟩
      · rw [upd_eq] at h3; cases h3
      · rcases upd_some h2 with ⟨rfl, rfl⟩ | ⟨hne', h2⟩
        · rw [upd_eq] at h4; cases h4
        · rw [upd_ne hne] at h3; rw [upd_ne hne'] at h4
          exact hO.injChunk n m a b id k h1 h2 h3 h4
    · intro n m a b h1 h2 h3 h4 h5
      have h3 : Function.update home s.tickets .direct n = _ := h3
      have h4 : Function.update home s.tickets .direct m = _ := h4
      rcases upd_some h1 with ⟨rfl, rfl⟩ | ⟨hne, h1⟩ <;>
        rcases upd_some h2 with ⟨rfl, rfl⟩ | ⟨hne', h2⟩
      · rfl
      · rw [upd_ne hne'] at h4
        have := (hO.ok m b h2).2.2
        rw [h4] at this
        exact absurd h5.symm (hfr.ne hh h0 this.1)
      · rw [upd_ne hne] at h3
        have := (hO.ok n a h1).2.2
        rw [h3] at this
        exact absurd h5 (hfr.ne hh h0 this.1)
      · rw [upd_ne hne] at h3; rw [upd_ne hne'] at h4
        exact hO.injDirect n m a b h1 h2 h3 h4 h5
    · intro id o k h1 h2
      obtain ⟨n, a, h3, h4⟩ := hO.full id o k h1 h2
      have hn := hlt n a h3
      refine ⟨n, a, ?_, ?_⟩
      · show Function.update s.own s.tickets _ n = _; rw [upd_ne hn]; exact h3
      · show Function.update home s.tickets _ n = _; rw [upd_ne hn]; exact h4
    · intro q z h
      rcases upd_some h with ⟨rfl, rfl⟩ | ⟨hne, h⟩
      · exact Or.inr ⟨s.tickets, _, upd_eq, upd_eq, rfl⟩
      · rcases hO.cover q z h with h | ⟨n, a, h3, h4, h5⟩
        · exact Or.inl h
        · have hn := hlt n a h3
          refine Or.inr ⟨n, a, ?_, ?_, h5⟩
          · show Function.update s.own s.tickets _ n = _; rw [upd_ne hn]; exact h3
          · show Function.update home s.tickets _ n = _; rw [upd_ne hn]; exact h4
    · intro n a h
      rcases upd_some h with ⟨rfl, rfl⟩ | ⟨hne, h⟩
      · exact fun _ => rfl
      · exact hO.excl n a h
    · intro n a h
      show Function.update home s.tickets .direct n = .direct ↔ _
      rcases upd_some h with ⟨rfl, rfl⟩ | ⟨hne, h⟩
      · rw [upd_eq]; exact ⟨fun _ => hkd, fun _ => rfl⟩
      · rw [upd_ne hne]; exact hO.kind n a h
  · refine ⟨fun u hu => upd_ne hu, fun _ _ => rfl, fun _ _ _ _ _ => Iff.rfl,
      fun id o h _ => ⟨o, h, rfl⟩, fun id o h _ => ⟨o, h, rfl, rfl⟩, Nat.le_refl _, ?_, ?_,
      Or.inl ⟨rfl, rfl⟩⟩
    · intro u _ n a h _
      refine ⟨a, ?_, rfl, rfl, fun h1 h2 => ⟨h1, h2⟩, fun h => h⟩
      show Function.update s.own s.tickets _ n = _
      rw [upd_ne (hlt n a h)]; exact h
    · intro n hn
      exact upd_ne (by omega)
  · intro _
    show sec (Function.update s.pc t .idle t) = none
    rw [upd_eq]; rfl
  · intro i hi; cases hi
  · show PcOk c _ _ t (Function.update s.pc t .idle t)
    rw [upd_eq]; trivial

/-- The provider gives memory for a slab. -/
theorem makeOk_inv (hc : CfgOk c) (hI : Inv c s home) {i : Nat} {r : Req}
    (hpc : s.pc t = .make i r) {p : Nat} (hfr : Fresh c s p (slabSize c i) 0) :
    Inv c { (s.setObj s.next (newObj c i p)).setMem p (some (slabSize c i)) with
        next := s.next + 1, pc := Function.update s.pc t (.reg i r s.next) } home := by
  have hp := hI.pcs t
  rw [hpc] at hp
  obtain ⟨hfit, hz, hav⟩ := hp
  have h0 := slabSize_pos hc i
  have hh := hI.heap
  have hO := hI.owners
  obtain ⟨m1, m2, m3⟩ := hh.addMem hfr h0
  have hnew : s.objs s.next = none := by
    cases h : s.objs s.next with
    | none => rfl
    | some o => exact absurd (hh.objLt _ _ h) (Nat.lt_irrefl _)
  have hkeep : ∀ id o, s.objs id = some o →
      Function.update s.objs s.next (some (newObj c i p)) id = some o := fun id o h => by
    have := hh.objLt _ _ h
    rw [upd_ne (by omega)]; exact h
  have hdis : ∀ id o, s.objs id = some o → o.has = true → o.base ≠ p := fun id o h1 h2 =>
    hfr.ne hh h0 (hh.objMem id o h1 h2).1
  have hpos : 1 ≤ numChunks c i := by unfold numChunks; omega
  have hfree : (newObj c i p).free.count false = 0 := by
    simp [newObj, List.count_replicate]
  have hlist : ∀ j id, id ∈ (s.bk j).avail ∨ id ∈ (s.bk j).unavail → id ≠ s.next := by
    intro j id h
    obtain ⟨o, h1, _⟩ := hh.listed j id h
    have := hh.objLt _ _ h1
    omega
  refine hI.next (t := t) (I := some i) ?_ ?_ hI.bad ?_ (Or.inl (by rw [hpc]; rfl)) ?_ ?_ ?_
  · refine ⟨m1, m2, ?_, ?_, ?_, ?_, ?_, ?_, hh.nodup, ?_, ?_⟩
    · intro id o h
      show id < s.next + 1
      rcases upd_some h with ⟨rfl, _⟩ | ⟨_, h⟩
      · omega
      · have := hh.objLt _ _ h; omega
    · intro id o h
      rcases upd_some h with ⟨rfl, rfl⟩ | ⟨_, h⟩
      · exact ⟨hfit.lt, List.length_replicate, hfree.symm⟩
      · exact hh.obj id o h
    · intro id o h h'
      rcases upd_some h with ⟨rfl, rfl⟩ | ⟨_, h⟩
      · exact ⟨upd_eq, hfr.2.2.2.1⟩
      · exact ⟨m3 _ _ (hh.objMem id o h h').1, (hh.objMem id o h h').2⟩
    · intro id o id' o' h1 h2 h3 h4 h5
      rcases upd_some h1 with ⟨rfl, rfl⟩ | ⟨_, h1⟩ <;> rcases upd_some h2 with ⟨rfl, rfl⟩ | ⟨_, h2⟩
      · rfl
      · exact absurd h5.symm (hdis _ _ h2 h4)
      · exact absurd h5 (hdis _ _ h1 h3)
      · exact hh.objInj id o id' o' h1 h2 h3 h4 h5
    · intro b id h
      obtain ⟨o, g1, g2⟩ := hh.known b id h
      exact ⟨o, hkeep id o g1, g2⟩
    · intro j id h
      obtain ⟨o, g1, g2⟩ := hh.listed j id h
      exact ⟨o, hkeep id o g1, g2⟩
    · intro j id o h1 h2
      rcases upd_some h2 with ⟨rfl, _⟩ | ⟨_, h2⟩
      · exact absurd rfl (hlist j _ (Or.inl h1))
      · exact hh.av j id o h1 h2
    · intro j id o h1 h2
      rcases upd_some h2 with ⟨rfl, _⟩ | ⟨_, h2⟩
      · exact absurd rfl (hlist j _ (Or.inr h1))
      · exact hh.un j id o h1 h2
  · refine ⟨hO.lt, ?_, hO.injChunk, hO.injDirect, ?_, ?_, hO.excl, hO.kind⟩
    · intro n a h
      obtain ⟨g1, g2, g3⟩ := hO.ok n a h
      refine ⟨g1, g2, ?_⟩
      revert g3
      cases home n with
      | chunk id k =>
        rintro ⟨o, h1, h2⟩
        exact ⟨o, hkeep id o h1, h2⟩
      | direct =>
        rintro ⟨h1, h2⟩
        refine ⟨m3 _ _ h1, fun id o h3 h4 => ?_⟩
        rcases upd_some h3 with ⟨rfl, rfl⟩ | ⟨_, h3⟩
        · exact (hfr.ne hh h0 h1).symm
        · exact h2 id o h3 h4
    · intro id o k h1 h2
      rcases upd_some h1 with ⟨rfl, rfl⟩ | ⟨_, h1⟩
      · exact absurd h2 (count_false_zero hfree)
      · exact hO.full id o k h1 h2
    · intro q z h
      rcases upd_some h with ⟨rfl, rfl⟩ | ⟨_, h⟩
      · exact Or.inl ⟨s.next, _, upd_eq, rfl, rfl⟩
      · rcases hO.cover q z h with ⟨id, o, h1, h2⟩ | h
        · exact Or.inl ⟨id, o, hkeep id o h1, h2⟩
        · exact Or.inr h
  · refine ⟨fun u hu => upd_ne hu, fun _ _ => rfl, ?_, ?_, ?_, Nat.le_succ _, ?_, fun _ _ => rfl,
      Or.inl ⟨rfl, rfl⟩⟩
    · intro j hj id o hb
      constructor
      · exact hkeep id o
      · intro h
        rcases upd_some h with ⟨rfl, rfl⟩ | ⟨_, h⟩
        · exact absurd (by rw [← hb]; rfl) hj
        · exact h
    · intro id o h hid
      rcases upd_some h with ⟨rfl, _⟩ | ⟨_, h⟩
      · exact absurd hid (Nat.lt_irrefl _)
      · exact ⟨o, h, rfl⟩
    · intro id o h _; exact ⟨o, hkeep id o h, rfl, rfl⟩
    · intro u _ n a h _
      exact ⟨a, h, rfl, rfl, fun h1 h2 => ⟨h1, h2⟩, fun h => h⟩
  · intro h; cases h
  · intro j hj
    cases hj
    refine ⟨hI.lim i, Or.inr ⟨?_, (hI.lock i t).2 (by rw [hpc]; rfl)⟩⟩
    show sec (Function.update s.pc t _ t) = _
    rw [upd_eq]; rfl
  · show PcOk c _ _ t (Function.update s.pc t _ t)
    rw [upd_eq]
    refine ⟨hfit, ?_, hav, newObj c i p, upd_eq, rfl, rfl, rfl, ?_, ?_⟩
    · show (s.bk i).pooled = (s.bk i).avail.countP _
      rw [hz]
      unfold zeros
      rw [hav]; rfl
    · exact fun h => hlist i _ (Or.inl h) rfl
    · exact fun h => hlist i _ (Or.inr h) rfl

/-- Memory that is not a slab's is returned. -/
theorem pfree_inv (hI : Inv c s home) {tk ptr z : Nat} (hpc : s.pc t = .pfree tk ptr z) :
    Inv c (((s.provFree ptr z).setOwn tk .none).setPc t .idle) home := by
  have hp := hI.pcs t
  rw [hpc] at hp
  obtain ⟨⟨a, ha, rfl, hfree⟩, hd, hm⟩ := hp
  have hh := hI.heap
  have hO := hI.owners
  have hok := (hO.ok tk a ha).2.2
  rw [hd] at hok
  have hbase : ∀ id o, s.objs id = some o → o.has = true → o.base ≠ a.ptr := hok.2
  have e : s.provFree a.ptr z = s.setMem a.ptr none := by
    unfold St.provFree; rw [if_pos hm]
  rw [e]
  refine hI.next (t := t) (I := none) ?_ ?_ hI.bad ?_ (Or.inl (by rw [hpc]; rfl)) ?_ ?_ ?_
  · refine ⟨?_, ?_, hh.objLt, hh.obj, ?_, hh.objInj, hh.known, hh.listed, hh.nodup, hh.av, hh.un⟩
    · intro q w h; exact hh.memOk q w (upd_none h).2
    · intro q w q' w' h1 h2; exact hh.memSep q w q' w' (upd_none h1).2 (upd_none h2).2
    · intro id o h1 h2
      refine ⟨?_, (hh.objMem id o h1 h2).2⟩
      show Function.update s.mem _ none _ = _
      rw [upd_ne (hbase id o h1 h2)]
      exact (hh.objMem id o h1 h2).1
  · refine ⟨?_, ?_, ?_, ?_, ?_, ?_, ?_, ?_⟩
    · intro n b h; exact hO.lt n b (upd_none h).2
    · intro n b h
      obtain ⟨hne, h⟩ := upd_none h
      obtain ⟨g1, g2, g3⟩ := hO.ok n b h
      refine ⟨g1, g2, ?_⟩
      cases hn : home n with
      | chunk id k => rw [hn] at g3; exact g3
      | direct =>
        rw [hn] at g3
        refine ⟨?_, g3.2⟩
        show Function.update s.mem _ none _ = _
        rw [upd_ne]
        · exact g3.1
        · intro e
          exact hne (hO.injDirect n tk b a h ha hn hd e)
    · intro n m b d id k h1 h2
      exact hO.injChunk n m b d id k (upd_none h1).2 (upd_none h2).2
    · intro n m b d h1 h2
      exact hO.injDirect n m b d (upd_none h1).2 (upd_none h2).2
    · intro id o k h1 h2
      obtain ⟨n, b, h3, h4⟩ := hO.full id o k h1 h2
      refine ⟨n, b, ?_, h4⟩
      show Function.update s.own tk none n = _
      rw [upd_ne]
      · exact h3
      · rintro rfl; rw [hd] at h4; cases h4
    · intro q w h
      obtain ⟨hne, h⟩ := upd_none h
      rcases hO.cover q w h with h | ⟨n, b, h3, h4, h5⟩
      · exact Or.inl h
      · refine Or.inr ⟨n, b, ?_, h4, h5⟩
        show Function.update s.own tk none n = _
        rw [upd_ne]
        · exact h3
        · rintro rfl; rw [ha] at h3; cases h3; exact hne h5.symm
    · intro n b h; exact hO.excl n b (upd_none h).2
    · intro n b h; exact hO.kind n b (upd_none h).2
  · refine ⟨fun u hu => upd_ne hu, fun _ _ => rfl, fun _ _ _ _ _ => Iff.rfl,
      fun id o h _ => ⟨o, h, rfl⟩, fun id o h _ => ⟨o, h, rfl, rfl⟩, Nat.le_refl _, ?_,
      fun _ _ => rfl, Or.inl ⟨rfl, rfl⟩⟩
    intro u hu n b h hor
    refine ⟨b, ?_, rfl, rfl, fun h1 h2 => ⟨h1, h2⟩, fun h => h⟩
    show Function.update s.own tk none n = _
    rw [upd_ne]
    · exact h
    · rintro rfl
      rw [ha] at h; cases h
      have hfree : a.freeing = some t := hfree
      rcases hor with hor | hor
      · rw [hO.excl n a ha (by rw [hfree]; simp)] at hor; cases hor
      · rw [hfree] at hor; exact hu (Option.some.inj hor).symm
  · intro _
    show sec (Function.update s.pc t .idle t) = none
    rw [upd_eq]; rfl
  · intro i hi; cases hi
  · show PcOk c _ _ t (Function.update s.pc t .idle t)
    rw [upd_eq]; trivial

/-- The memory of a slab is returned. -/
theorem drop_inv (hI : Inv c s home) {id i : Nat} {fr : Bool} (hpc : s.pc t = .drop id i fr)
    {o : Obj} (ho : s.objs id = some o) :
    Inv c (((s.provFree o.base (slabSize c i)).setObj id { o with has := false }).setPc
        t (.dropObj id i fr)) home := by
  have hp := hI.pcs t
  rw [hpc] at hp
  obtain ⟨hz, o1, h1, h2, h3, h4, h5, h6⟩ := hp
  rw [ho] at h1; cases h1
  have hh := hI.heap
  have hO := hI.owners
  have hcnt : o.free.count false = 0 := by rw [← (hh.obj id o ho).2.2]; exact h4
  have hmem := (hh.objMem id o ho h3).1
  have e : s.provFree o.base (slabSize c i) = s.setMem o.base none := by
    unfold St.provFree; rw [← h2, if_pos hmem]
  rw [e]
  have hkn : ∀ b, s.known b ≠ some id := by
    intro b hb
    obtain ⟨o2, g1, g2, g3, g4⟩ := hh.known b id hb
    rw [ho] at g1; cases g1
    rw [h2] at g4
    rcases g4 with g | g
    · exact h5 g
    · exact h6 g
  have hnl : ∀ j id', id' ∈ (s.bk j).avail ∨ id' ∈ (s.bk j).unavail → id' ≠ id := by
    rintro j id' h rfl
    obtain ⟨o2, g1, g2, g3, g4⟩ := hh.listed j id' h
    rw [ho] at g1; cases g1
    exact hkn _ g4
  have hne : ∀ id' o', s.objs id' = some o' → o'.has = true → id' ≠ id → o'.base ≠ o.base :=
    fun id' o' g1 g2 g3 g4 => g3 (hh.objInj id' o' id o g1 ho g2 h3 g4)
  have hout : ∀ id' o', Function.update s.objs id (some { o with has := false }) id' = some o' →
      o'.has = true → id' ≠ id ∧ s.objs id' = some o' := by
    intro id' o' h hhas
    rcases upd_some h with ⟨_, rfl⟩ | h
    · cases hhas
    · exact h
  have hown : ∀ n a id' k, s.own n = some a → home n = .chunk id' k → id' ≠ id := by
    rintro n a id' k g1 g2 rfl
    have g3 := (hO.ok n a g1).2.2
    rw [g2] at g3
    obtain ⟨o2, g4, g5, g6, g7, _⟩ := g3
    rw [ho] at g4; cases g4
    exact count_false_zero hcnt g7
  refine hI.next (t := t) (I := some i) ?_ ?_ hI.bad ?_ (Or.inl (by rw [hpc]; rfl)) ?_ ?_ ?_
  · refine ⟨?_, ?_, ?_, ?_, ?_, ?_, ?_, ?_, hh.nodup, ?_, ?_⟩
    · intro q w h; exact hh.memOk q w (upd_none h).2
    · intro q w q' w' g1 g2; exact hh.memSep q w q' w' (upd_none g1).2 (upd_none g2).2
    · intro id' o' h
      rcases upd_some h with ⟨rfl, _⟩ | ⟨_, h⟩
      · exact hh.objLt _ _ ho
      · exact hh.objLt _ _ h
    · intro id' o' h
      rcases upd_some h with ⟨rfl, rfl⟩ | ⟨_, h⟩
      · exact hh.obj id' o ho
      · exact hh.obj _ _ h
    · intro id' o' h hhas
      obtain ⟨g1, g2⟩ := hout id' o' h hhas
      refine ⟨?_, (hh.objMem id' o' g2 hhas).2⟩
      show Function.update s.mem _ none _ = _
      rw [upd_ne (hne id' o' g2 hhas g1)]
      exact (hh.objMem id' o' g2 hhas).1
    · intro id1 o1 id2 o2 g1 g2 g3 g4
      exact hh.objInj id1 o1 id2 o2 (hout _ _ g1 g3).2 (hout _ _ g2 g4).2 g3 g4
    · intro b id' h
      obtain ⟨o2, g1, g2⟩ := hh.known b id' h
      refine ⟨o2, ?_, g2⟩
      show Function.update s.objs id _ id' = _
      rw [upd_ne (fun e => hkn b (by rw [← e]; exact h))]; exact g1
    · intro j id' h
      obtain ⟨o2, g1, g2⟩ := hh.listed j id' h
      refine ⟨o2, ?_, g2⟩
      show Function.update s.objs id _ id' = _
      rw [upd_ne (hnl j id' h)]; exact g1
    · intro j id' o' g1 g2
      rcases upd_some g2 with ⟨rfl, _⟩ | ⟨_, g2⟩
      · exact absurd rfl (hnl j _ (Or.inl g1))
      · exact hh.av j id' o' g1 g2
    · intro j id' o' g1 g2
      rcases upd_some g2 with ⟨rfl, _⟩ | ⟨_, g2⟩
      · exact absurd rfl (hnl j _ (Or.inr g1))
      · exact hh.un j id' o' g1 g2
  · refine ⟨hO.lt, ?_, hO.injChunk, hO.injDirect, ?_, ?_, hO.excl, hO.kind⟩
    · intro n a h
      obtain ⟨g1, g2, g3⟩ := hO.ok n a h
      refine ⟨g1, g2, ?_⟩
      cases hn : home n with
      | chunk id' k =>
        rw [hn] at g3
        obtain ⟨o2, g4, g5⟩ := g3
        refine ⟨o2, ?_, g5⟩
        show Function.update s.objs id _ id' = _
        rw [upd_ne (hown n a id' k h hn)]; exact g4
      | direct =>
        rw [hn] at g3
        refine ⟨?_, fun id' o' g4 g5 => g3.2 id' o' (hout id' o' g4 g5).2 g5⟩
        show Function.update s.mem _ none _ = _
        rw [upd_ne (g3.2 id o ho h3).symm]; exact g3.1
    · intro id' o' k g1 g2
      rcases upd_some g1 with ⟨rfl, rfl⟩ | ⟨_, g1⟩
      · exact absurd g2 (count_false_zero hcnt)
      · exact hO.full id' o' k g1 g2
    · intro q w h
      obtain ⟨hq, h⟩ := upd_none h
      rcases hO.cover q w h with ⟨id', o', g1, g2, g3⟩ | h
      · refine Or.inl ⟨id', o', ?_, g2, g3⟩
        show Function.update s.objs id _ id' = _
        rw [upd_ne]
        · exact g1
        · rintro rfl; rw [ho] at g1; cases g1; exact hq g3.symm
      · exact Or.inr h
  · refine ⟨fun u hu => upd_ne hu, fun _ _ => rfl, ?_, ?_, ?_, Nat.le_refl _, ?_, fun _ _ => rfl,
      Or.inl ⟨rfl, rfl⟩⟩
    · intro j hj id' o' hb
      show _ ↔ Function.update s.objs id _ id' = _
      by_cases hid : id' = id
      · subst hid
        rw [upd_eq, ho]
        constructor
        · intro h; cases h; exact absurd (by rw [← hb, h2]) hj
        · intro h; cases h; exact absurd (by rw [← hb]; simp only; rw [h2]) hj
      · rw [upd_ne hid]
    · intro id' o' h _
      rcases upd_some h with ⟨rfl, rfl⟩ | ⟨_, h⟩
      · exact ⟨o, ho, rfl⟩
      · exact ⟨o', h, rfl⟩
    · intro id' o' h hhas
      show ∃ x, Function.update s.objs id _ id' = some x ∧ _
      by_cases hid : id' = id
      · subst hid
        rw [upd_eq]
        rw [ho] at h; cases h
        exact ⟨_, rfl, rfl, rfl⟩
      · rw [upd_ne hid]; exact ⟨o', h, rfl, rfl⟩
    · intro u _ n a h _
      exact ⟨a, h, rfl, rfl, fun h1 h2 => ⟨h1, h2⟩, fun h => h⟩
  · intro h; cases h
  · intro j hj
    cases hj
    refine ⟨hI.lim i, Or.inr ⟨?_, (hI.lock i t).2 (by rw [hpc]; rfl)⟩⟩
    show sec (Function.update s.pc t _ t) = _
    rw [upd_eq]; rfl
  · show PcOk c _ _ t (Function.update s.pc t _ t)
    rw [upd_eq]
    refine ⟨?_, { o with has := false }, upd_eq, h2, rfl, h4⟩
    show (s.bk i).pooled = (s.bk i).avail.countP _
    rw [hz]
    unfold zeros
    apply countP_congr'
    intro x hx
    unfold isEmpty
    show _ = match Function.update s.objs id _ x with | some o => o.used == 0 | none => false
    rw [upd_ne (hnl i x (Or.inl hx))]
    cases s.objs x <;> rfl

/-- The slab object is freed. -/
theorem dropObj_inv (hI : Inv c s home) {id i : Nat} {fr : Bool}
    (hpc : s.pc t = .dropObj id i fr) :
    Inv c { s with
        objs := Function.update s.objs id none, pc := Function.update s.pc t (.fin i fr) } home := by
  have hp := hI.pcs t
  rw [hpc] at hp
  obtain ⟨hz, o, ho, h2, h3, h4⟩ := hp
  have hh := hI.heap
  have hO := hI.owners
  have hcnt : o.free.count false = 0 := by rw [← (hh.obj id o ho).2.2]; exact h4
  have hhas : ∀ id' o', s.objs id' = some o' → o'.has = true → id' ≠ id := by
    rintro id' o' g1 g2 rfl
    rw [ho] at g1; cases g1; rw [h3] at g2; cases g2
  have hnl : ∀ j id', id' ∈ (s.bk j).avail ∨ id' ∈ (s.bk j).unavail → id' ≠ id := by
    intro j id' h
    obtain ⟨o2, g1, g2, g3, g4⟩ := hh.listed j id' h
    exact hhas _ _ g1 g3
  have hk : ∀ id' o', s.objs id' = some o' → id' ≠ id →
      Function.update s.objs id none id' = some o' := fun id' o' g1 g2 => by
    rw [upd_ne g2]; exact g1
  refine hI.next (t := t) (I := some i) ?_ ?_ hI.bad ?_ (Or.inl (by rw [hpc]; rfl)) ?_ ?_ ?_
  · refine ⟨hh.memOk, hh.memSep, ?_, ?_, ?_, ?_, ?_, ?_, hh.nodup, ?_, ?_⟩
    · intro id' o' h; exact hh.objLt id' o' (upd_none h).2
    · intro id' o' h; exact hh.obj id' o' (upd_none h).2
    · intro id' o' h; exact hh.objMem id' o' (upd_none h).2
    · intro id' o' id2 o2 g1 g2; exact hh.objInj id' o' id2 o2 (upd_none g1).2 (upd_none g2).2
    · intro b id' h
      obtain ⟨o2, g1, g2, g3, g4⟩ := hh.known b id' h
      exact ⟨o2, hk _ _ g1 (hhas _ _ g1 g3), g2, g3, g4⟩
    · intro j id' h
      obtain ⟨o2, g1, g2⟩ := hh.listed j id' h
      exact ⟨o2, hk _ _ g1 (hnl j id' h), g2⟩
    · intro j id' o' g1 g2; exact hh.av j id' o' g1 (upd_none g2).2
    · intro j id' o' g1 g2; exact hh.un j id' o' g1 (upd_none g2).2
  · refine ⟨hO.lt, ?_, hO.injChunk, hO.injDirect, ?_, ?_, hO.excl, hO.kind⟩
    · intro n a h
      obtain ⟨g1, g2, g3⟩ := hO.ok n a h
      refine ⟨g1, g2, ?_⟩
      cases hn : home n with
      | chunk id' k =>
        rw [hn] at g3
        obtain ⟨o2, g4, g5, g6⟩ := g3
        exact ⟨o2, hk _ _ g4 (hhas _ _ g4 g5), g5, g6⟩
      | direct =>
        rw [hn] at g3
        exact ⟨g3.1, fun id' o' g4 g5 => g3.2 id' o' (upd_none g4).2 g5⟩
    · intro id' o' k g1 g2; exact hO.full id' o' k (upd_none g1).2 g2
    · intro q w h
      rcases hO.cover q w h with ⟨id', o', g1, g2, g3⟩ | h
      · exact Or.inl ⟨id', o', hk _ _ g1 (hhas _ _ g1 g2), g2, g3⟩
      · exact Or.inr h
  · refine ⟨fun u hu => upd_ne hu, fun _ _ => rfl, ?_, ?_, ?_, Nat.le_refl _, ?_, fun _ _ => rfl,
      Or.inl ⟨rfl, rfl⟩⟩
    · intro j hj id' o' hb
      constructor
      · intro h
        refine hk _ _ h ?_
        rintro rfl
        rw [ho] at h; cases h
        exact hj (by rw [← hb, h2])
      · intro h; exact (upd_none h).2
    · intro id' o' h _; exact ⟨o', (upd_none h).2, rfl⟩
    · intro id' o' h hh'; exact ⟨o', hk _ _ h (hhas _ _ h hh'), rfl, rfl⟩
    · intro u _ n a h _
      exact ⟨a, h, rfl, rfl, fun h1 h2 => ⟨h1, h2⟩, fun h => h⟩
  · intro h; cases h
  · intro j hj
    cases hj
    refine ⟨hI.lim i, Or.inr ⟨?_, (hI.lock i t).2 (by rw [hpc]; rfl)⟩⟩
    show sec (Function.update s.pc t _ t) = _
    rw [upd_eq]; rfl
  · show PcOk c _ _ t (Function.update s.pc t _ t)
    rw [upd_eq]
    show (s.bk i).pooled = (s.bk i).avail.countP _
    rw [hz]
    unfold zeros
    apply countP_congr'
    intro x hx
    unfold isEmpty
    show _ = match Function.update s.objs id none x with | some o => o.used == 0 | none => false
    rw [upd_ne (hnl i x (Or.inl hx))]
    cases s.objs x <;> rfl

end

end Verif.Disjoint.Conc
