import Verif.Heap.Ops3

/-!
# The invariant of the pools in many threads

Who may rely on what: everything that is in use belongs to one thread that creates or destroys a pool, or to a pool.
-/
namespace Verif.Heap
open Function (update)

abbrev Gh := Sum Tid Pool → K

structure GOk (s : St) (G : Gh) : Prop where
  recs : ∀ i p r, (G i).recs p = some r → s.recs p = some r
  tbb : ∀ i p r, (G i).tbb p = some r → s.tbb p = some r
  arena : ∀ i p r, (G i).arena p = some r → s.arena p = some r
  tab : ∀ i a v, (G i).tab a = some v → s.table a = v
  dRecs : ∀ i j q, i ≠ j → (G i).recs q ≠ none → (G j).recs q = none
  dTbb : ∀ i j q, i ≠ j → (G i).tbb q ≠ none → (G j).tbb q = none
  dArena : ∀ i j q, i ≠ j → (G i).arena q ≠ none → (G j).arena q = none
  dTab : ∀ i j q, i ≠ j → (G i).tab q ≠ none → (G j).tab q = none
  cRecs : ∀ p, s.recs p ≠ none → ∃ i, (G i).recs p ≠ none
  cTbb : ∀ p, s.tbb p ≠ none → ∃ i, (G i).tbb p ≠ none
  cArena : ∀ p, s.arena p ≠ none → (∃ i, (G i).arena p ≠ none) ∨ s.stuck p = true
  used : ∀ p, s.recs p ≠ none → s.used p = true

/-- Where the memory of a pool comes from. -/
def K.src (k : K) (p : Pool) : Src := match k.recs p with
  | some r => r.src
  | none => .none

theorem pool_src {p : Pool} {m : Made} {r : Rec} : (K.pool p m r).src p = r.src := by simp [K.src, K.pool]

structure BlkOk (cfg : Cfg) (G : Gh) (b : Blk) : Prop where
  ptr : b.reg.ptr ≠ 0
  size : b.reg.size = if cfg.noWrap then b.asked else wrap b.asked
  align : (∃ j, b.align = 2 ^ j ∧ j < 64) → b.align ∣ b.reg.ptr
  src : b.reg.src = (G (.inr b.pool)).src b.pool

/-- What a thread may rely on. -/
def known (G : Gh) (t : Tid) (op : Op) : K :=
  if op.excl then G (.inl t) else match op.pool with
    | some (_, p) => G (.inr p)
    | none => K.empty

def St.ev (s : St) (t : Tid) (f : Frame) : Ev := ⟨s.tls t, f.refused, f.freeErr, f.nested⟩

structure ThOk (cfg : Cfg) (s : St) (G : Gh) (t : Tid) (f : Frame) : Prop where
  shared : f.op.excl = false → ∃ g p m, f.op.pool = some (g, p) ∧ s.made p = some m ∧ m.file = g ∧ f.made = some m
  destr : ∀ g p, f.op = .destroy g p → ∃ m, f.made = some m ∧ m.file = g
  saved : ∀ g p, f.op.pool = some (g, p) → f.op.ptr ≠ 0 →
    ∃ b, f.saved = some b ∧ BlkOk cfg G b ∧ b.pool = p ∧ b.reg.ptr = f.op.ptr
  tabs : ∀ a, (G (.inl t)).tab a ≠ none → (∃ p, f.op = .destroy .je p) ∨
    (f.op.isDestroy = false ∧ (G (.inl t)).arena a ≠ none)
  prog : ∃ pv src own0 zero f0, f.provider = some pv ∧ f0.op = f.op ∧
    (∀ g p, f.op.excl = false → f.op.pool = some (g, p) → src = (G (.inr p)).src p) ∧
    (f.op.ptr = 0 → own0 = []) ∧ (∀ b, f.op.ptr ≠ 0 → f.saved = some b → own0 = [b.reg]) ∧
    (∀ x ∈ zero, (∃ y ∈ f.own, y.ptr ≤ x.1 ∧ x.1 + x.2 ≤ y.ptr + y.size) ∧
      ∀ i, x.1 ≤ i → i < x.1 + x.2 → s.mem i = 0) ∧
    wp pv f.op (Post cfg.noWrap f0 src own0) f.prog ⟨known G t f.op, f.own, zero, s.ev t f⟩

structure Inv (cfg : Cfg) (s : St) (G : Gh) : Prop where
  g : GOk s G
  pools : ∀ p m, s.made p = some m → PoolK (G (.inr p)) p m
  noPool : ∀ p, s.made p = none → G (.inr p) = K.empty
  noThread : ∀ t, s.th t = none → G (.inl t) = K.empty
  shared : ∀ t f, s.th t = some f → f.op.excl = false → G (.inl t) = K.empty
  th : ∀ t f, s.th t = some f → ThOk cfg s G t f
  blk : ∀ x b, s.blk x = some b → b.reg.ptr = x ∧ s.made b.pool ≠ none ∧ BlkOk cfg G b
  blkApart : ∀ x y b c, x ≠ y → s.blk x = some b → s.blk y = some c → Apart b.reg c.reg
  ownBlk : ∀ t f, s.th t = some f → ∀ y ∈ f.own, ∀ x b, s.blk x = some b → Apart y b.reg
  ownOwn : ∀ t t' f f', t ≠ t' → s.th t = some f → s.th t' = some f' → ∀ y ∈ f.own, ∀ y' ∈ f'.own, Apart y y'

theorem Apart.symm {x y : Reg} (h : Apart x y) : Apart y x := h.elim .inr .inl

/-- The new knowledge of one holder. -/
theorem GOk.set {s s' : St} {G : Gh} (h : GOk s G) {i : Sum Tid Pool} {k : K}
    (hr1 : ∀ q r, k.recs q = some r → s'.recs q = some r)
    (ht1 : ∀ q r, k.tbb q = some r → s'.tbb q = some r)
    (ha1 : ∀ q r, k.arena q = some r → s'.arena q = some r)
    (hb1 : ∀ q v, k.tab q = some v → s'.table q = v)
    (hr2 : ∀ q, k.recs q ≠ none → (G i).recs q ≠ none ∨ ∀ j, j ≠ i → (G j).recs q = none)
    (ht2 : ∀ q, k.tbb q ≠ none → (G i).tbb q ≠ none ∨ ∀ j, j ≠ i → (G j).tbb q = none)
    (ha2 : ∀ q, k.arena q ≠ none → (G i).arena q ≠ none ∨ ∀ j, j ≠ i → (G j).arena q = none)
    (hb2 : ∀ q, k.tab q ≠ none → (G i).tab q ≠ none ∨ ∀ j, j ≠ i → (G j).tab q = none)
    (hr3 : ∀ q, s'.recs q = s.recs q ∨ (G i).recs q ≠ none ∨ ∀ j, j ≠ i → (G j).recs q = none)
    (ht3 : ∀ q, s'.tbb q = s.tbb q ∨ (G i).tbb q ≠ none ∨ ∀ j, j ≠ i → (G j).tbb q = none)
    (ha3 : ∀ q, s'.arena q = s.arena q ∨ (G i).arena q ≠ none ∨ ∀ j, j ≠ i → (G j).arena q = none)
    (hb3 : ∀ q, s'.table q = s.table q ∨ (G i).tab q ≠ none ∨ ∀ j, j ≠ i → (G j).tab q = none)
    (hr4 : ∀ q, s'.recs q ≠ none → k.recs q ≠ none ∨ (s.recs q ≠ none ∧ (G i).recs q = none))
    (ht4 : ∀ q, s'.tbb q ≠ none → k.tbb q ≠ none ∨ (s.tbb q ≠ none ∧ (G i).tbb q = none))
    (ha4 : ∀ q, s'.arena q ≠ none → k.arena q ≠ none ∨ (s.arena q ≠ none ∧ (G i).arena q = none) ∨ s'.stuck q = true)
    (hs : ∀ q, s.stuck q = true → s'.stuck q = true)
    (hu : ∀ q, s'.recs q ≠ none → s'.used q = true) : GOk s' (update G i k) := by
  have e1 : update G i k i = k := by simp
  have e2 : ∀ j, j ≠ i → update G i k j = G j := fun j hj => Function.update_of_ne hj _ _
  refine ⟨?_, ?_, ?_, ?_, ?_, ?_, ?_, ?_, ?_, ?_, ?_, hu⟩
  · intro j q r hj
    by_cases hji : j = i
    · subst hji; rw [e1] at hj; exact hr1 q r hj
    · rw [e2 j hji] at hj
      rcases hr3 q with h3 | h3 | h3
      · rw [h3]; exact h.recs j q r hj
      · rw [h.dRecs i j q (Ne.symm hji) h3] at hj; cases hj
      · rw [h3 j hji] at hj; cases hj
  · intro j q r hj
    by_cases hji : j = i
    · subst hji; rw [e1] at hj; exact ht1 q r hj
    · rw [e2 j hji] at hj
      rcases ht3 q with h3 | h3 | h3
      · rw [h3]; exact h.tbb j q r hj
      · rw [h.dTbb i j q (Ne.symm hji) h3] at hj; cases hj
      · rw [h3 j hji] at hj; cases hj
  · intro j q r hj
    by_cases hji : j = i
    · subst hji; rw [e1] at hj; exact ha1 q r hj
    · rw [e2 j hji] at hj
      rcases ha3 q with h3 | h3 | h3
      · rw [h3]; exact h.arena j q r hj
      · rw [h.dArena i j q (Ne.symm hji) h3] at hj; cases hj
      · rw [h3 j hji] at hj; cases hj
  · intro j q r hj
    by_cases hji : j = i
    · subst hji; rw [e1] at hj; exact hb1 q r hj
    · rw [e2 j hji] at hj
      rcases hb3 q with h3 | h3 | h3
      · rw [h3]; exact h.tab j q r hj
      · rw [h.dTab i j q (Ne.symm hji) h3] at hj; cases hj
      · rw [h3 j hji] at hj; cases hj
  · intro a b q hab hq
    by_cases ha : a = i
    · subst ha
      rw [e1] at hq
      rw [e2 b (Ne.symm hab)]
      rcases hr2 q hq with h2 | h2
      · exact h.dRecs a b q hab h2
      · exact h2 b (Ne.symm hab)
    · rw [e2 a ha] at hq
      by_cases hb : b = i
      · subst hb
        rw [e1]
        by_contra hk
        rcases hr2 q hk with h2 | h2
        · exact h2 (h.dRecs a b q hab hq)
        · exact hq (h2 a ha)
      · rw [e2 b hb]
        exact h.dRecs a b q hab hq
  · intro a b q hab hq
    by_cases ha : a = i
    · subst ha
      rw [e1] at hq
      rw [e2 b (Ne.symm hab)]
      rcases ht2 q hq with h2 | h2
      · exact h.dTbb a b q hab h2
      · exact h2 b (Ne.symm hab)
    · rw [e2 a ha] at hq
      by_cases hb : b = i
      · subst hb
        rw [e1]
        by_contra hk
        rcases ht2 q hk with h2 | h2
        · exact h2 (h.dTbb a b q hab hq)
        · exact hq (h2 a ha)
      · rw [e2 b hb]
        exact h.dTbb a b q hab hq
  · intro a b q hab hq
    by_cases ha : a = i
    · subst ha
      rw [e1] at hq
      rw [e2 b (Ne.symm hab)]
      rcases ha2 q hq with h2 | h2
      · exact h.dArena a b q hab h2
      · exact h2 b (Ne.symm hab)
    · rw [e2 a ha] at hq
      by_cases hb : b = i
      · subst hb
        rw [e1]
        by_contra hk
        rcases ha2 q hk with h2 | h2
        · exact h2 (h.dArena a b q hab hq)
        · exact hq (h2 a ha)
      · rw [e2 b hb]
        exact h.dArena a b q hab hq
  · intro a b q hab hq
    by_cases ha : a = i
    · subst ha
      rw [e1] at hq
      rw [e2 b (Ne.symm hab)]
      rcases hb2 q hq with h2 | h2
      · exact h.dTab a b q hab h2
      · exact h2 b (Ne.symm hab)
    · rw [e2 a ha] at hq
      by_cases hb : b = i
      · subst hb
        rw [e1]
        by_contra hk
        rcases hb2 q hk with h2 | h2
        · exact h2 (h.dTab a b q hab hq)
        · exact hq (h2 a ha)
      · rw [e2 b hb]
        exact h.dTab a b q hab hq
  · intro q hq
    rcases hr4 q hq with h4 | ⟨h4, h5⟩
    · exact ⟨i, by rw [e1]; exact h4⟩
    · obtain ⟨j, hj⟩ := h.cRecs q h4
      exact ⟨j, by rw [e2 j (fun e => hj (e ▸ h5))]; exact hj⟩
  · intro q hq
    rcases ht4 q hq with h4 | ⟨h4, h5⟩
    · exact ⟨i, by rw [e1]; exact h4⟩
    · obtain ⟨j, hj⟩ := h.cTbb q h4
      exact ⟨j, by rw [e2 j (fun e => hj (e ▸ h5))]; exact hj⟩
  · intro q hq
    rcases ha4 q hq with h4 | ⟨h4, h5⟩ | h4
    · exact .inl ⟨i, by rw [e1]; exact h4⟩
    · rcases h.cArena q h4 with ⟨j, hj⟩ | hst
      · exact .inl ⟨j, by rw [e2 j (fun e => hj (e ▸ h5))]; exact hj⟩
      · exact .inr (hs q hst)
    · exact .inr h4

/-- A holder that holds nothing in use any more. -/
theorem GOk.drop {s : St} {G : Gh} (h : GOk s G) {i : Sum Tid Pool} (h1 : (G i).recs = K.empty.recs)
    (h2 : (G i).tbb = K.empty.tbb) (h3 : (G i).arena = K.empty.arena) : GOk s (update G i K.empty) := by
  refine h.set ?_ ?_ ?_ ?_ ?_ ?_ ?_ ?_ (fun _ => .inl rfl) (fun _ => .inl rfl) (fun _ => .inl rfl) (fun _ => .inl rfl)
    (fun q hq => .inr ⟨hq, by rw [h1]; rfl⟩) (fun q hq => .inr ⟨hq, by rw [h2]; rfl⟩)
    (fun q hq => .inr (.inl ⟨hq, by rw [h3]; rfl⟩)) (fun _ h => h) h.used <;> simp [K.empty]

/-- Everything passes from one holder to another one. -/
theorem GOk.move {s : St} {G : Gh} (h : GOk s G) {i j : Sum Tid Pool} (hij : i ≠ j) (hj : G j = K.empty) :
    GOk s (update (update G j (G i)) i K.empty) := by
  have e1 : update (update G j (G i)) i K.empty i = K.empty := by simp
  have e2 : update (update G j (G i)) i K.empty j = G i := by
    rw [Function.update_of_ne (Ne.symm hij)]; simp
  have e3 : ∀ a, a ≠ i → a ≠ j → update (update G j (G i)) i K.empty a = G a := fun a h1 h2 => by
    rw [Function.update_of_ne h1, Function.update_of_ne h2]
  -- every holder's knowledge is that of another one, or nothing
  have src : ∀ a, update (update G j (G i)) i K.empty a = K.empty ∨
      ∃ b, update (update G j (G i)) i K.empty a = G b ∧ ((a = j ∧ b = i) ∨ (a ≠ i ∧ a ≠ j ∧ b = a)) := by
    intro a
    by_cases h1 : a = i
    · subst h1; exact .inl e1
    by_cases h2 : a = j
    · subst h2; exact .inr ⟨i, e2, .inl ⟨rfl, rfl⟩⟩
    · exact .inr ⟨a, e3 a h1 h2, .inr ⟨h1, h2, rfl⟩⟩
  have inj : ∀ a b a' b', a ≠ b → ((a = j ∧ a' = i) ∨ (a ≠ i ∧ a ≠ j ∧ a' = a)) →
      ((b = j ∧ b' = i) ∨ (b ≠ i ∧ b ≠ j ∧ b' = b)) → a' ≠ b' := by
    rintro a b a' b' hab (⟨h1, h2⟩ | ⟨h1, h2, h3⟩) (⟨h4, h5⟩ | ⟨h4, h5, h6⟩) he
    · exact hab (h1.trans h4.symm)
    · exact h4 (by rw [← h6, ← he, h2])
    · exact h1 (by rw [← h3, he, h5])
    · exact hab (by rw [← h3, he, h6])
  have back : ∀ b, G b = K.empty ∨ ∃ a, update (update G j (G i)) i K.empty a = G b := by
    intro b
    by_cases h1 : b = i
    · subst h1; exact .inr ⟨j, e2⟩
    by_cases h2 : b = j
    · subst h2; exact .inl hj
    · exact .inr ⟨b, e3 b h1 h2⟩
  refine ⟨?_, ?_, ?_, ?_, ?_, ?_, ?_, ?_, ?_, ?_, ?_, h.used⟩
  · intro a q r ha
    rcases src a with h1 | ⟨b, h1, _⟩ <;> rw [h1] at ha
    · cases ha
    · exact h.recs b q r ha
  · intro a q r ha
    rcases src a with h1 | ⟨b, h1, _⟩ <;> rw [h1] at ha
    · cases ha
    · exact h.tbb b q r ha
  · intro a q r ha
    rcases src a with h1 | ⟨b, h1, _⟩ <;> rw [h1] at ha
    · cases ha
    · exact h.arena b q r ha
  · intro a q r ha
    rcases src a with h1 | ⟨b, h1, _⟩ <;> rw [h1] at ha
    · cases ha
    · exact h.tab b q r ha
  · intro a b q hab ha
    rcases src a with h1 | ⟨a', h1, ha'⟩
    · rw [h1] at ha; exact absurd rfl ha
    rcases src b with h2 | ⟨b', h2, hb'⟩
    · rw [h2]; rfl
    rw [h1] at ha
    rw [h2]
    exact h.dRecs a' b' q (inj a b a' b' hab ha' hb') ha
  · intro a b q hab ha
    rcases src a with h1 | ⟨a', h1, ha'⟩
    · rw [h1] at ha; exact absurd rfl ha
    rcases src b with h2 | ⟨b', h2, hb'⟩
    · rw [h2]; rfl
    rw [h1] at ha
    rw [h2]
    exact h.dTbb a' b' q (inj a b a' b' hab ha' hb') ha
  · intro a b q hab ha
    rcases src a with h1 | ⟨a', h1, ha'⟩
    · rw [h1] at ha; exact absurd rfl ha
    rcases src b with h2 | ⟨b', h2, hb'⟩
    · rw [h2]; rfl
    rw [h1] at ha
    rw [h2]
    exact h.dArena a' b' q (inj a b a' b' hab ha' hb') ha
  · intro a b q hab ha
    rcases src a with h1 | ⟨a', h1, ha'⟩
    · rw [h1] at ha; exact absurd rfl ha
    rcases src b with h2 | ⟨b', h2, hb'⟩
    · rw [h2]; rfl
    rw [h1] at ha
    rw [h2]
    exact h.dTab a' b' q (inj a b a' b' hab ha' hb') ha
  · intro q hq
    obtain ⟨b, hb⟩ := h.cRecs q hq
    rcases back b with h1 | ⟨a, h1⟩
    · rw [h1] at hb; exact absurd rfl hb
    · exact ⟨a, by rw [h1]; exact hb⟩
  · intro q hq
    obtain ⟨b, hb⟩ := h.cTbb q hq
    rcases back b with h1 | ⟨a, h1⟩
    · rw [h1] at hb; exact absurd rfl hb
    · exact ⟨a, by rw [h1]; exact hb⟩
  · intro q hq
    rcases h.cArena q hq with ⟨b, hb⟩ | hst
    · rcases back b with h1 | ⟨a, h1⟩
      · rw [h1] at hb; exact absurd rfl hb
      · exact .inl ⟨a, by rw [h1]; exact hb⟩
    · exact .inr hst

end Verif.Heap
