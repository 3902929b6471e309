import Verif.Disjoint.ConcMem
import Mathlib.Tactic.Tauto
/-! # Steps that take a chunk from a slab or give one back -/
set_option linter.unusedSimpArgs false
namespace Verif.Disjoint.Conc
open Mem

section
variable {c : Cfg} {s s' : St} {home home' : Nat → Home} {t : Nat} {I : Option Nat}

/-- The chunk map of a listed slab changes, the slab may move between the lists of its bucket. -/
theorem Heap.update (hh : Heap c s) {id i : Nat} {o o' : Obj} (ho : s.objs id = some o)
    (hb : o.bkt = i)
    (e1 : o'.base = o.base) (e2 : o'.bkt = o.bkt) (e3 : o'.has = o.has)
    (e4 : o'.free.length = o.free.length) (e5 : o'.used = o'.free.count false) {b : Bk}
    (hm : ∀ x, x ∈ b.avail ∨ x ∈ b.unavail ↔ x ∈ (s.bk i).avail ∨ x ∈ (s.bk i).unavail)
    (hn : (b.avail ++ b.unavail).Nodup)
    (hA : id ∈ b.avail → o'.used < o'.free.length) (hU : id ∈ b.unavail → o'.used = o'.free.length)
    (hA' : ∀ x, x ≠ id → x ∈ b.avail → x ∈ (s.bk i).avail)
    (hU' : ∀ x, x ≠ id → x ∈ b.unavail → x ∈ (s.bk i).unavail)
    (f1 : s'.objs = Function.update s.objs id (some o')) (f2 : s'.bk = Function.update s.bk i b)
    (f3 : s'.known = s.known) (f4 : s'.mem = s.mem) (f5 : s'.next = s.next) : Heap c s' := by
  have hlist : ∀ j x, x ∈ (Function.update s.bk i b j).avail ∨
      x ∈ (Function.update s.bk i b j).unavail ↔ x ∈ (s.bk j).avail ∨ x ∈ (s.bk j).unavail := by
    intro j x
    by_cases hj : j = i
    · subst hj; rw [upd_eq]; exact hm x
    · rw [upd_ne hj]
  have hold : ∀ x ox, s.objs x = some ox → ∃ oy, Function.update s.objs id (some o') x = some oy ∧
      oy.base = ox.base ∧ oy.bkt = ox.bkt ∧ oy.has = ox.has := by
    intro x ox h
    by_cases hx : x = id
    · subst hx; rw [upd_eq]; rw [ho] at h; cases h; exact ⟨o', rfl, e1, e2, e3⟩
    · rw [upd_ne hx]; exact ⟨ox, h, rfl, rfl, rfl⟩
  have hnew : ∀ x oy, Function.update s.objs id (some o') x = some oy → ∃ ox, s.objs x = some ox ∧
      oy.base = ox.base ∧ oy.bkt = ox.bkt ∧ oy.has = ox.has := by
    intro x oy h
    rcases upd_some h with ⟨rfl, rfl⟩ | ⟨_, h⟩
    · exact ⟨o, ho, e1, e2, e3⟩
    · exact ⟨oy, h, rfl, rfl, rfl⟩
  refine ⟨?_, ?_, ?_, ?_, ?_, ?_, ?_, ?_, ?_, ?_, ?_⟩ <;> simp only [f1, f2, f3, f4, f5]
  · exact hh.memOk
  · exact hh.memSep
  · intro x oy h
    obtain ⟨ox, g1, _⟩ := hnew x oy h
    exact hh.objLt x ox g1
  · intro x oy h
    rcases upd_some h with ⟨rfl, rfl⟩ | ⟨_, h⟩
    · obtain ⟨g1, g2, g3⟩ := hh.obj x o ho
      rw [e2, e4]
      exact ⟨g1, g2, e5⟩
    · exact hh.obj x oy h
  · intro x oy h hx
    obtain ⟨ox, g1, g2, g3, g4⟩ := hnew x oy h
    rw [g2, g3]; exact hh.objMem x ox g1 (by rw [← g4]; exact hx)
  · intro x oy x' oy' h1 h2 h3 h4 h5
    obtain ⟨ox, g1, g2, g3, g4⟩ := hnew x oy h1
    obtain ⟨ox', g1', g2', g3', g4'⟩ := hnew x' oy' h2
    exact hh.objInj x ox x' ox' g1 g1' (by rw [← g4]; exact h3) (by rw [← g4']; exact h4)
      (by rw [← g2, ← g2']; exact h5)
  · intro p x h
    obtain ⟨ox, g1, g2, g3, g4⟩ := hh.known p x h
    obtain ⟨oy, k1, k2, k3, k4⟩ := hold x ox g1
    refine ⟨oy, k1, by rw [k2]; exact g2, by rw [k4]; exact g3, ?_⟩
    rw [k3]
    exact (hlist _ _).2 g4
  · intro j x h
    obtain ⟨ox, g1, g2, g3, g4⟩ := hh.listed j x ((hlist j x).1 h)
    obtain ⟨oy, k1, k2, k3, k4⟩ := hold x ox g1
    exact ⟨oy, k1, by rw [k3]; exact g2, by rw [k4]; exact g3, by rw [k2]; exact g4⟩
  · intro j
    by_cases hj : j = i
    · subst hj; rw [upd_eq]; exact hn
    · rw [upd_ne hj]; exact hh.nodup j
  · intro j x oy h1 h2
    by_cases hj : j = i
    · subst hj
      rw [upd_eq] at h1
      rcases upd_some h2 with ⟨rfl, rfl⟩ | ⟨hx, h2⟩
      · exact hA h1
      · exact hh.av j x oy (hA' x hx h1) h2
    · rw [upd_ne hj] at h1
      have hx : x ≠ id := by
        rintro rfl
        obtain ⟨ox, g1, g2, _⟩ := hh.listed j x (Or.inl h1)
        rw [ho] at g1; cases g1
        exact hj (by rw [← g2, hb])
      rw [upd_ne hx] at h2
      exact hh.av j x oy h1 h2
  · intro j x oy h1 h2
    by_cases hj : j = i
    · subst hj
      rw [upd_eq] at h1
      rcases upd_some h2 with ⟨rfl, rfl⟩ | ⟨hx, h2⟩
      · exact hU h1
      · exact hh.un j x oy (hU' x hx h1) h2
    · rw [upd_ne hj] at h1
      have hx : x ≠ id := by
        rintro rfl
        obtain ⟨ox, g1, g2, _⟩ := hh.listed j x (Or.inr h1)
        rw [ho] at g1; cases g1
        exact hj (by rw [← g2, hb])
      rw [upd_ne hx] at h2
      exact hh.un j x oy h1 h2

/-- The frame of such a step. -/
theorem Frame.update {id i : Nat} {o o' : Obj} (ho : s.objs id = some o)
    (hb : o.bkt = i) (e1 : o'.base = o.base) (e2 : o'.bkt = o.bkt) {b : Bk}
    (hp : ∀ u, u ≠ t → s'.pc u = s.pc u)
    (f1 : s'.objs = Function.update s.objs id (some o')) (f2 : s'.bk = Function.update s.bk i b)
    (f3 : s'.known = s.known) (f4 : s'.hist = s.hist) (f5 : s'.next = s.next)
    (hown : ∀ u, u ≠ t → ∀ tk a, s.own tk = some a → (u ∈ a.readers ∨ a.freeing = some u) →
      s'.own tk = some a)
    (hhome : ∀ n, n < s.tickets → home' n = home n) : Frame s s' home home' t (some i) := by
  refine ⟨hp, ?_, ?_, ?_, ?_, by rw [f5], ?_, hhome, Or.inl ⟨f3, f4⟩⟩
  · intro j hj
    rw [f2, upd_ne (fun e => hj (by rw [e]))]
  · intro j hj x ox hx
    rw [f1]
    by_cases hxi : x = id
    · subst hxi
      rw [upd_eq, ho]
      have : j ≠ i := fun e => hj (by rw [e])
      constructor
      · intro h; cases h; exact absurd (hx.symm.trans hb) this
      · intro h; cases h; exact absurd (hx.symm.trans (e2.trans hb)) this
    · rw [upd_ne hxi]
  · intro x oy h _
    rw [f1] at h
    rcases upd_some h with ⟨rfl, rfl⟩ | ⟨_, h⟩
    · exact ⟨o, ho, e1.symm⟩
    · exact ⟨oy, h, rfl⟩
  · intro x ox h _
    rw [f1]
    by_cases hx : x = id
    · subst hx; rw [upd_eq]; rw [ho] at h; cases h; exact ⟨o', rfl, e1, e2⟩
    · rw [upd_ne hx]; exact ⟨ox, h, rfl, rfl⟩
  · intro u hu tk a ha hor
    exact ⟨a, hown u hu tk a ha hor, rfl, rfl, fun h1 h2 => ⟨h1, h2⟩, fun h => h⟩

theorem countP_upd {f : Nat → Option Obj} {g : Nat → Option Obj} {l : List Nat}
    (h : ∀ x ∈ l, f x = g x) (s1 s2 : St) (h1 : s1.objs = f) (h2 : s2.objs = g) :
    l.countP (isEmpty s1) = l.countP (isEmpty s2) := by
  apply countP_congr'
  intro x hx
  unfold isEmpty
  rw [h1, h2, h x hx]

/-- A chunk is taken from the first available slab. -/
theorem takeOk_inv (hI : Inv c s home) {i id k : Nat} {r : Req} {rest : List Nat}
    {o : Obj} (hpc : s.pc t = .take i r) (hav : (s.bk i).avail = id :: rest)
    (ho : s.objs id = some o) (hk : firstFree o.free = some k) :
    Inv c { (((takeChunk s i id rest o k).setLock i none).setOwn s.tickets
        (some ⟨result r (o.base + k * csize c i), r.size, r.al, [], none⟩)) with
        tickets := s.tickets + 1, pc := Function.update s.pc t .idle }
      (Function.update home s.tickets (.chunk id k)) := by
  have hp := hI.pcs t
  rw [hpc] at hp
  obtain ⟨hfit, hz, -⟩ := hp
  have hh := hI.heap
  have hO := hI.owners
  have hk1 := firstFree_some hk
  obtain ⟨o1, g1, hbk, hhas, hkn⟩ := hh.listed i id (Or.inl (by rw [hav]; simp))
  rw [ho] at g1; cases g1
  obtain ⟨hb1, hb2, hb3⟩ := hh.obj id o ho
  have hcnt := count_set_false hk1
  have hlt := hh.av i id o (by rw [hav]; simp) ho
  have hnd := hh.nodup i
  rw [hav] at hnd
  have hnd' := List.nodup_cons.1 (show (id :: (rest ++ (s.bk i).unavail)).Nodup from hnd)
  have hidr : id ∉ rest := fun h => hnd'.1 (List.mem_append.2 (Or.inl h))
  have hidu : id ∉ (s.bk i).unavail := fun h => hnd'.1 (List.mem_append.2 (Or.inr h))
  have hm := hh.objMem id o ho hhas
  rw [hbk] at hm
  have hf := hfit.fit o.base k (by rw [← hbk, ← hb2]; exact get_lt hk1) (hh.memOk _ _ hm.1).2.2 hm.2
  have hlt' : ∀ n a, s.own n = some a → n ≠ s.tickets := fun n a h => by
    have := hO.lt n a h; omega
  obtain ⟨o', ho'⟩ : ∃ o', o' = { o with free := o.free.set k false, used := o.used + 1 } :=
    ⟨_, rfl⟩
  have q1 : o'.base = o.base := by rw [ho']
  have q2 : o'.bkt = o.bkt := by rw [ho']
  have q3 : o'.has = o.has := by rw [ho']
  have q4 : o'.free = o.free.set k false := by rw [ho']
  have q5 : o'.used = o.used + 1 := by rw [ho']
  have q6 : o'.free.length = o.free.length := by rw [q4, List.length_set]
  obtain ⟨b, hb⟩ : ∃ b, b = { (if o'.used < o'.free.length then s.bk i
     else { s.bk i with avail := rest, unavail := id :: (s.bk i).unavail }) with lock := none } :=
    ⟨_, rfl⟩
  have w1 : b.lock = none := by rw [hb]
  have w2 : b.pooled = (s.bk i).pooled := by rw [hb]; split <;> rfl
  have w3 : (o'.used < o'.free.length ∧ b.avail = id :: rest ∧ b.unavail = (s.bk i).unavail) ∨
      (¬ o'.used < o'.free.length ∧ b.avail = rest ∧ b.unavail = id :: (s.bk i).unavail) := by
    rw [hb]
    by_cases h : o'.used < o'.free.length
    · rw [if_pos h]; exact Or.inl ⟨h, hav, rfl⟩
    · rw [if_neg h]; exact Or.inr ⟨h, rfl, rfl⟩
  generalize hs' : ({ (((takeChunk s i id rest o k).setLock i none).setOwn s.tickets
        (some ⟨result r (o.base + k * csize c i), r.size, r.al, [], none⟩)) with
        tickets := s.tickets + 1, pc := Function.update s.pc t .idle } : St) = s'
  have f1 : s'.objs = Function.update s.objs id (some o') := by rw [← hs', ho']; rfl
  have f2 : s'.bk = Function.update s.bk i b := by
    rw [← hs', hb, ho']
    simp only [St.setOwn, St.setLock, takeChunk, St.setBk, St.setObj, Function.update_self,
      Function.update_idem]
  have f3 : s'.known = s.known := by rw [← hs']; rfl
  have f4 : s'.mem = s.mem := by rw [← hs']; rfl
  have f5 : s'.next = s.next := by rw [← hs']; rfl
  have f6 : s'.hist = s.hist := by rw [← hs']; rfl
  have f7 : s'.own = Function.update s.own s.tickets
    (some ⟨result r (o.base + k * csize c i), r.size, r.al, [], none⟩) := by rw [← hs']; rfl
  have f8 : s'.pc = Function.update s.pc t .idle := by rw [← hs']
  have f9 : s'.tickets = s.tickets + 1 := by rw [← hs']
  have f10 : s'.bad = s.bad := by rw [← hs']; rfl
  clear hs' hb ho'
  have hpt : s'.pc t = .idle := by rw [f8, upd_eq]
  refine hI.next (t := t) (I := some i) ?_ ?_ (by rw [f10]; exact hI.bad) ?_
    (Or.inl (by rw [hpc]; rfl)) ?_ ?_ ?_
  · refine hh.update ho hbk q1 q2 q3 q6 (by rw [q4, q5, hcnt, hb3]) (b := b) ?_ ?_ ?_ ?_ ?_ ?_
      f1 f2 f3 f4 f5
    · intro x
      rw [hav]
      rcases w3 with ⟨_, h1, h2⟩ | ⟨_, h1, h2⟩ <;> rw [h1, h2] <;> (simp; tauto)
    · rcases w3 with ⟨_, h1, h2⟩ | ⟨_, h1, h2⟩ <;> rw [h1, h2]
      · exact hnd
      · exact (List.perm_middle.nodup_iff).2 hnd
    · intro hx
      rcases w3 with ⟨h, h1, h2⟩ | ⟨_, h1, h2⟩
      · exact h
      · rw [h1] at hx; exact absurd hx hidr
    · intro hx
      rcases w3 with ⟨h, h1, h2⟩ | ⟨h, h1, h2⟩
      · rw [h2] at hx; exact absurd hx hidu
      · omega
    · intro x hx
      rw [hav]
      rcases w3 with ⟨_, h1, h2⟩ | ⟨_, h1, h2⟩ <;> rw [h1] <;> (simp; try tauto)
    · intro x hx
      rcases w3 with ⟨_, h1, h2⟩ | ⟨_, h1, h2⟩ <;> rw [h2] <;> (simp; try tauto)
  · refine ⟨?_, ?_, ?_, ?_, ?_, ?_, ?_, ?_⟩ <;> simp only [f1, f3, f4, f7, f9]
    · intro n a h
      rcases upd_some h with ⟨rfl, _⟩ | ⟨_, h⟩
      · omega
      · have := hO.lt n a h; omega
    · intro n a h
      rcases upd_some h with ⟨rfl, rfl⟩ | ⟨hne, h⟩
      · refine ⟨hfit.size, hf.1, ?_⟩
        rw [upd_eq]
        refine ⟨o', by rw [f1, upd_eq], by rw [q3]; exact hhas, by rw [q1, f3]; exact hkn, ?_, ?_⟩
        · rw [q4, List.getElem?_set_self (get_lt hk1)]
        · rw [q1, q2, hbk]
          exact hf.2
      · rw [upd_ne hne]
        obtain ⟨g1, g2, g3⟩ := hO.ok n a h
        refine ⟨g1, g2, ?_⟩
        cases hn : home n with
        | chunk id' k' =>
          rw [hn] at g3
          obtain ⟨o2, k1, k2, k3, k4, k5⟩ := g3
          by_cases hid : id' = id
          · subst hid
            rw [ho] at k1; cases k1
            refine ⟨o', by rw [f1, upd_eq], by rw [q3]; exact k2, by rw [q1, f3]; exact k3, ?_,
              by rw [q1, q2]; exact k5⟩
            rw [q4, List.getElem?_set_ne]
            · exact k4
            · rintro rfl; rw [hk1] at k4; cases k4
          · exact ⟨o2, by rw [f1, upd_ne hid]; exact k1, k2, by rw [f3]; exact k3, k4, k5⟩
        | direct =>
          rw [hn] at g3
          refine ⟨by rw [f4]; exact g3.1, fun id' o2 h1 h2 => ?_⟩
          rw [f1] at h1
          rcases upd_some h1 with ⟨rfl, rfl⟩ | ⟨_, h1⟩
          · rw [q1]; exact g3.2 id' o ho hhas
          · exact g3.2 id' o2 h1 h2
    · intro n m a b' id' k' h1 h2 h3 h4
      have hfree : ∀ n a, s.own n = some a → home n ≠ .chunk id k := by
        intro n a h hn
        have g3 := (hO.ok n a h).2.2
        rw [hn] at g3
        obtain ⟨o2, k1, k2, k3, k4, k5⟩ := g3
        rw [ho] at k1; cases k1
        rw [hk1] at k4; cases k4
      rcases upd_some h1 with ⟨rfl, rfl⟩ | ⟨hne, h1⟩ <;>
        rcases upd_some h2 with ⟨rfl, rfl⟩ | ⟨hne', h2⟩
      · rfl
      · rw [upd_eq] at h3; cases h3
        rw [upd_ne hne'] at h4
        exact absurd h4 (hfree m _ h2)
      · rw [upd_eq] at h4; cases h4
        rw [upd_ne hne] at h3
        exact absurd h3 (hfree n _ h1)
      · rw [upd_ne hne] at h3; rw [upd_ne hne'] at h4
        exact hO.injChunk n m a b' id' k' h1 h2 h3 h4
    · intro n m a b' h1 h2 h3 h4 h5
      rcases upd_some h1 with ⟨rfl, rfl⟩ | ⟨hne, h1⟩
      · rw [upd_eq] at h3; cases h3
      · rcases upd_some h2 with ⟨rfl, rfl⟩ | ⟨hne', h2⟩
        · rw [upd_eq] at h4; cases h4
        · rw [upd_ne hne] at h3; rw [upd_ne hne'] at h4
          exact hO.injDirect n m a b' h1 h2 h3 h4 h5
    · intro id' o2 k' h1 h2
      have hold : ∀ n a, s.own n = some a → home n = .chunk id' k' → ∃ n a,
          Function.update s.own s.tickets
            (some (⟨result r (o.base + k * csize c i), r.size, r.al, [], none⟩ : Own)) n = some a ∧
          Function.update home s.tickets (.chunk id k) n = .chunk id' k' := by
        intro n a h3 h4
        have hn := hlt' n a h3
        exact ⟨n, a, by rw [upd_ne hn]; exact h3, by rw [upd_ne hn]; exact h4⟩
      rcases upd_some h1 with ⟨rfl, rfl⟩ | ⟨hid, h1⟩
      · by_cases hkk : k' = k
        · subst hkk
          exact ⟨s.tickets, _, upd_eq, upd_eq⟩
        · rw [q4, List.getElem?_set_ne (fun e => hkk e.symm)] at h2
          obtain ⟨n, a, h3, h4⟩ := hO.full id' o k' ho h2
          exact hold n a h3 h4
      · obtain ⟨n, a, h3, h4⟩ := hO.full id' o2 k' h1 h2
        exact hold n a h3 h4
    · intro p z h
      rcases hO.cover p z h with ⟨id', o2, h1, h2, h3⟩ | ⟨n, a, h3, h4, h5⟩
      · left
        by_cases hid : id' = id
        · subst hid
          rw [ho] at h1; cases h1
          exact ⟨id', o', upd_eq, by rw [q3]; exact h2, by rw [q1]; exact h3⟩
        · exact ⟨id', o2, by rw [upd_ne hid]; exact h1, h2, h3⟩
      · right
        have hn := hlt' n a h3
        exact ⟨n, a, by rw [upd_ne hn]; exact h3, by rw [upd_ne hn]; exact h4, h5⟩
    · intro n a h
      rcases upd_some h with ⟨rfl, rfl⟩ | ⟨hne, h⟩
      · exact fun _ => rfl
      · exact hO.excl n a h
    · intro n a h
      rcases upd_some h with ⟨rfl, rfl⟩ | ⟨hne, h⟩
      · rw [upd_eq]
        have := hfit.pool
        constructor
        · intro e; cases e
        · intro e
          have e : c.maxPoolable < lookupSize c r := e
          omega
      · rw [upd_ne hne]; exact hO.kind n a h
  · refine Frame.update ho hbk q1 q2 (b := b) (fun u hu => by rw [f8, upd_ne hu]) f1 f2 f3 f6 f5 ?_ ?_
    · intro u _ n a h _
      rw [f7, upd_ne (hlt' n a h)]; exact h
    · intro n hn
      exact upd_ne (by omega)
  · intro h; cases h
  · intro j hj
    cases hj
    have hbi : s'.bk i = b := by rw [f2, upd_eq]
    refine ⟨by rw [hbi, w2]; exact hI.lim i, Or.inl ⟨by rw [hpt]; rfl, by rw [hbi]; exact w1, ?_⟩⟩
    rw [hbi, w2]
    unfold zeros
    rw [hbi]
    have hrest : rest.countP (isEmpty s') = rest.countP (isEmpty s) :=
      countP_upd (fun x hx => upd_ne (fun e => hidr (by rw [← e]; exact hx))) s' s f1 rfl
    have hse : isEmpty s' id = false := by
      rw [isEmpty_iff (o := o') (by rw [f1, upd_eq]), q5]; simp
    have hzz : (s.bk i).pooled = rest.countP (isEmpty s) := by
      unfold zeros headEmpty at hz
      rw [hav] at hz
      simp only [List.countP_cons] at hz
      omega
    rcases w3 with ⟨_, h1, _⟩ | ⟨_, h1, _⟩
    · rw [h1, List.countP_cons, hse, hzz, hrest]; simp
    · rw [h1, hzz, hrest]
  · rw [hpt]; trivial

/-- A chunk is given back. -/
theorem chunkOk_inv (hc : CfgOk c) (hI : Inv c s home) {tk ptr id i : Nat}
    {o : Obj} (hpc : s.pc t = .chunk tk ptr id i) (ho : s.objs id = some o) :
    Inv c (((putChunk s i id o ((ptr - o.base) / csize c i)).setOwn tk
        .none).setPc t (afterPut c id i (o.used - 1) (s.bk i).pooled)) home := by
  have hp := hI.pcs t
  rw [hpc] at hp
  obtain ⟨hz, ⟨a, ha, rfl, hfree⟩, k, hhm, o1, g1, hbk⟩ := hp
  rw [ho] at g1; cases g1
  have hfree : a.freeing = some t := hfree
  have hh := hI.heap
  have hO := hI.owners
  obtain ⟨hsz, -, hok⟩ := hO.ok tk a ha
  rw [hhm] at hok
  obtain ⟨o1, g1, hhas, hkn, hk1, hp1, hp2, hp3⟩ := hok
  rw [ho] at g1; cases g1
  rw [hbk] at hp1 hp2
  obtain ⟨hb1, hb2, hb3⟩ := hh.obj id o ho
  rw [hbk] at hb1
  have hidx : (a.ptr - o.base) / csize c i = k :=
    chunk_idx (csize_pos hc hb1) (by omega) (by omega)
  rw [hidx]
  have hcnt := count_set_true hk1
  have hle : o.free.count false ≤ o.free.length := List.count_le_length
  obtain ⟨o2, k1, -, -, hmem⟩ := hh.known _ _ hkn
  rw [ho] at k1; cases k1
  rw [hbk] at hmem
  have hnd := hh.nodup i
  obtain ⟨hnA, hnU, hnAU⟩ := List.nodup_append.1 hnd
  obtain ⟨o', ho'⟩ : ∃ o', o' = { o with free := o.free.set k true, used := o.used - 1 } :=
    ⟨_, rfl⟩
  have q1 : o'.base = o.base := by rw [ho']
  have q2 : o'.bkt = o.bkt := by rw [ho']
  have q3 : o'.has = o.has := by rw [ho']
  have q4 : o'.free = o.free.set k true := by rw [ho']
  have q5 : o'.used = o.used - 1 := by rw [ho']
  have q6 : o'.free.length = o.free.length := by rw [q4, List.length_set]
  have q7 : o.used = o'.used + 1 := by omega
  obtain ⟨b, hb⟩ : ∃ b, b = (if o'.free.length - o'.used = 1 then
       { s.bk i with avail := id :: (s.bk i).avail, unavail := (s.bk i).unavail.filter (· != id) }
     else s.bk i) := ⟨_, rfl⟩
  have w1 : b.lock = (s.bk i).lock := by rw [hb]; split <;> rfl
  have w2 : b.pooled = (s.bk i).pooled := by rw [hb]; split <;> rfl
  have w3 : (o.used = o.free.length ∧ id ∉ (s.bk i).avail ∧ id ∈ (s.bk i).unavail ∧
        b.avail = id :: (s.bk i).avail ∧ b.unavail = (s.bk i).unavail.filter (· != id)) ∨
      (o.used ≠ o.free.length ∧ id ∈ (s.bk i).avail ∧ id ∉ (s.bk i).unavail ∧
        b.avail = (s.bk i).avail ∧ b.unavail = (s.bk i).unavail) := by
    rw [hb]
    by_cases h : o'.free.length - o'.used = 1
    · rw [if_pos h]
      have hu : o.used = o.free.length := by omega
      have hna : id ∉ (s.bk i).avail := fun hx => by have := hh.av i id o hx ho; omega
      exact Or.inl ⟨hu, hna, hmem.resolve_left hna, rfl, rfl⟩
    · rw [if_neg h]
      have hu : o.used ≠ o.free.length := by omega
      have hna : id ∉ (s.bk i).unavail := fun hx => hu (hh.un i id o hx ho)
      exact Or.inr ⟨hu, hmem.resolve_right hna, hna, rfl, rfl⟩
  generalize hs' : (((putChunk s i id o k).setOwn tk .none).setPc t
    (afterPut c id i (o.used - 1) (s.bk i).pooled)) = s'
  have f1 : s'.objs = Function.update s.objs id (some o') := by rw [← hs', ho']; rfl
  have f2 : s'.bk = Function.update s.bk i b := by rw [← hs', hb, ho']; rfl
  have f3 : s'.known = s.known := by rw [← hs']; rfl
  have f4 : s'.mem = s.mem := by rw [← hs']; rfl
  have f5 : s'.next = s.next := by rw [← hs']; rfl
  have f6 : s'.hist = s.hist := by rw [← hs']; rfl
  have f7 : s'.own = Function.update s.own tk none := by rw [← hs']; rfl
  have f8 : s'.pc = Function.update s.pc t (afterPut c id i o'.used (s.bk i).pooled) := by
    rw [← hs', q5]; rfl
  have f9 : s'.tickets = s.tickets := by rw [← hs']; rfl
  have f10 : s'.bad = s.bad := by rw [← hs']; rfl
  clear hs' hb ho'
  have hpt : s'.pc t = afterPut c id i o'.used (s.bk i).pooled := by rw [f8, upd_eq]
  have hbi : s'.bk i = b := by rw [f2, upd_eq]
  have hse : isEmpty s' id = decide (o'.used = 0) := isEmpty_iff (by rw [f1, upd_eq])
  have hse0 : isEmpty s id = false := by
    rw [isEmpty_iff ho, q7]; simp
  have hidA : id ∈ b.avail := by
    rcases w3 with ⟨_, _, _, h, _⟩ | ⟨_, h', _, h, _⟩ <;> rw [h]
    · simp
    · exact h'
  have hzz : zeros s' i = zeros s i + if o'.used = 0 then 1 else 0 := by
    unfold zeros
    rw [hbi]
    have key : ∀ l : List Nat, l.Nodup → id ∉ l →
        l.countP (isEmpty s') = l.countP (isEmpty s) := fun l _ hl =>
      countP_upd (fun x hx => upd_ne (fun e => hl (by rw [← e]; exact hx))) s' s f1 rfl
    rcases w3 with ⟨_, h1, _, h, _⟩ | ⟨_, h1, _, h, _⟩
    · rw [h, List.countP_cons, key _ hnA h1, hse]; simp
    · rw [h]
      obtain ⟨l1, l2, hl⟩ := List.append_of_mem h1
      rw [hl] at hnA ⊢
      obtain ⟨n1, n2, n3⟩ := List.nodup_append.1 hnA
      have i1 : id ∉ l1 := fun hx => n3 id hx id (by simp) rfl
      have i2 : id ∉ l2 := (List.nodup_cons.1 n2).1
      rw [List.countP_append, List.countP_append, List.countP_cons, List.countP_cons,
        key l1 n1 i1, key l2 (List.nodup_cons.1 n2).2 i2, hse, hse0]
      simp; omega
  have hsec : sec (afterPut c id i o'.used (s.bk i).pooled) = some i := by
    unfold afterPut; split
    · split <;> rfl
    · rfl
  refine hI.next (t := t) (I := some i) ?_ ?_ (by rw [f10]; exact hI.bad) ?_
    (Or.inl (by rw [hpc]; rfl)) ?_ ?_ ?_
  · refine hh.update ho hbk q1 q2 q3 q6 (by rw [q4]; omega) (b := b) ?_ ?_ ?_ ?_ ?_ ?_
      f1 f2 f3 f4 f5
    · intro x
      rcases w3 with ⟨_, h0, h0', h1, h2⟩ | ⟨_, h0, h0', h1, h2⟩ <;> rw [h1, h2]
      simp only [List.mem_cons, List.mem_filter, bne_iff_ne]
      by_cases hx : x = id
      · subst hx; simp [h0']
      · simp [hx]
    · rcases w3 with ⟨_, h0, h0', h1, h2⟩ | ⟨_, h0, h0', h1, h2⟩ <;> rw [h1, h2]
      · rw [List.cons_append, List.nodup_cons, List.nodup_append]
        refine ⟨?_, hnA, hnU.filter _, fun x hx y hy => hnAU x hx y (List.mem_filter.1 hy).1⟩
        intro hx
        rcases List.mem_append.1 hx with hx | hx
        · exact h0 hx
        · have := (List.mem_filter.1 hx).2
          simp at this
      · exact hnd
    · intro _; omega
    · intro hx
      rcases w3 with ⟨_, h0, h0', h1, h2⟩ | ⟨_, h0, h0', h1, h2⟩ <;> rw [h2] at hx
      · have := (List.mem_filter.1 hx).2
        simp at this
      · exact absurd hx h0'
    · intro x hx
      rcases w3 with ⟨_, h0, h0', h1, h2⟩ | ⟨_, h0, h0', h1, h2⟩ <;> rw [h1]
      · intro h
        rcases List.mem_cons.1 h with h | h
        · exact absurd h hx
        · exact h
      · exact fun h => h
    · intro x hx
      rcases w3 with ⟨_, h0, h0', h1, h2⟩ | ⟨_, h0, h0', h1, h2⟩ <;> rw [h2]
      · exact fun h => (List.mem_filter.1 h).1
      · exact fun h => h
  · refine ⟨?_, ?_, ?_, ?_, ?_, ?_, ?_, ?_⟩ <;> simp only [f1, f3, f4, f7, f9]
    · intro n x h; exact hO.lt n x (upd_none h).2
    · intro n x h
      obtain ⟨hne, h⟩ := upd_none h
      obtain ⟨g1, g2, g3⟩ := hO.ok n x h
      refine ⟨g1, g2, ?_⟩
      cases hn : home n with
      | chunk id' k' =>
        rw [hn] at g3
        obtain ⟨o2, k1, k2, k3, k4, k5⟩ := g3
        by_cases hid : id' = id
        · subst hid
          rw [ho] at k1; cases k1
          refine ⟨o', by rw [f1, upd_eq], by rw [q3]; exact k2, by rw [q1, f3]; exact k3, ?_,
            by rw [q1, q2]; exact k5⟩
          rw [q4, List.getElem?_set_ne]
          · exact k4
          · rintro rfl
            exact hne (hO.injChunk n tk x a id' k h ha hn hhm)
        · exact ⟨o2, by rw [f1, upd_ne hid]; exact k1, k2, by rw [f3]; exact k3, k4, k5⟩
      | direct =>
        rw [hn] at g3
        refine ⟨by rw [f4]; exact g3.1, fun id' o2 h1 h2 => ?_⟩
        rw [f1] at h1
        rcases upd_some h1 with ⟨rfl, rfl⟩ | ⟨_, h1⟩
        · rw [q1]; exact g3.2 id' o ho hhas
        · exact g3.2 id' o2 h1 h2
    · intro n m x y id' k' h1 h2
      exact hO.injChunk n m x y id' k' (upd_none h1).2 (upd_none h2).2
    · intro n m x y h1 h2
      exact hO.injDirect n m x y (upd_none h1).2 (upd_none h2).2
    · intro id' o2 k' h1 h2
      have hold : ∀ n x, s.own n = some x → home n = .chunk id' k' → n ≠ tk → ∃ n x,
          Function.update s.own tk none n = some x ∧ home n = .chunk id' k' := by
        intro n x h3 h4 h5
        exact ⟨n, x, by rw [upd_ne h5]; exact h3, h4⟩
      rcases upd_some h1 with ⟨rfl, rfl⟩ | ⟨hid, h1⟩
      · by_cases hkk : k' = k
        · subst hkk
          rw [q4, List.getElem?_set_self (get_lt hk1)] at h2; cases h2
        · rw [q4, List.getElem?_set_ne (fun e => hkk e.symm)] at h2
          obtain ⟨n, x, h3, h4⟩ := hO.full id' o k' ho h2
          refine hold n x h3 h4 ?_
          rintro rfl; rw [hhm] at h4; cases h4; exact hkk rfl
      · obtain ⟨n, x, h3, h4⟩ := hO.full id' o2 k' h1 h2
        refine hold n x h3 h4 ?_
        rintro rfl; rw [hhm] at h4; cases h4; exact hid rfl
    · intro p z h
      rcases hO.cover p z h with ⟨id', o2, h1, h2, h3⟩ | ⟨n, x, h3, h4, h5⟩
      · left
        by_cases hid : id' = id
        · subst hid
          rw [ho] at h1; cases h1
          exact ⟨id', o', upd_eq, by rw [q3]; exact h2, by rw [q1]; exact h3⟩
        · exact ⟨id', o2, by rw [upd_ne hid]; exact h1, h2, h3⟩
      · right
        refine ⟨n, x, ?_, h4, h5⟩
        rw [upd_ne]
        · exact h3
        · rintro rfl; rw [hhm] at h4; cases h4
    · intro n x h; exact hO.excl n x (upd_none h).2
    · intro n x h; exact hO.kind n x (upd_none h).2
  · refine Frame.update ho hbk q1 q2 (b := b) (fun u hu => by rw [f8, upd_ne hu]) f1 f2 f3 f6 f5 ?_
      (fun _ _ => rfl)
    intro u hu n x h hor
    rw [f7, upd_ne]
    · exact h
    · rintro rfl
      rw [ha] at h; cases h
      rcases hor with hor | hor
      · rw [hO.excl n a ha (by rw [hfree]; simp)] at hor; cases hor
      · rw [hfree] at hor; exact hu (Option.some.inj hor).symm
  · intro h; cases h
  · intro j hj
    cases hj
    refine ⟨by rw [hbi, w2]; exact hI.lim i, Or.inr ⟨by rw [hpt]; exact hsec, ?_⟩⟩
    rw [hbi, w1]; exact (hI.lock i t).2 (by rw [hpc]; rfl)
  · rw [hpt]
    unfold afterPut
    by_cases h0 : o'.used = 0
    · rw [if_pos h0]
      rw [if_pos h0] at hzz
      have hem : Emptied s' id i := ⟨by rw [hbi]; exact hidA, ⟨o', by rw [f1, upd_eq], h0⟩,
        by rw [hzz, hbi, w2, hz]⟩
      by_cases h1 : (s.bk i).pooled + 1 ≤ maxPooled c i
      · rw [if_pos h1]; exact ⟨hem, by rw [hbi, w2]; exact h1⟩
      · rw [if_neg h1]; exact hem
    · rw [if_neg h0]
      rw [if_neg h0] at hzz
      show (s'.bk i).pooled = zeros s' i
      rw [hzz, hbi, w2, hz]; rfl

end

end Verif.Disjoint.Conc
