import Verif.CpuIpc.Lemmas
/-!
# The invariant of histories of open and close
-/
namespace Verif.CpuIpc

/-- The provider may use IPC, and an fsdax mapping begins at a multiple of 2 MB. -/
def CanClose : Prov → Nat → Prop
  | .os _ ipc .., _ => ipc = true
  | .file _ ipc fsdax .., x => ipc = true ∧ (fsdax = true → x % MB2 = 0)
  | .devdax .., _ => True

/-- The kernel without what is mapped at `[x, x + len)` of process `q`. -/
def unmapped (K : Kernel) (q x len : Nat) : Kernel :=
  { K with mem := setAt K.mem q fun y => if x ≤ y ∧ y < x + len then none else K.mem q y }

theorem munmap_ok (K : Kernel) (q x len : Nat) (h1 : len ≠ 0) (h2 : x % K.P = 0) :
    munmap K q x len true = (true, unmapped K q x (alignUp len K.P)) := by
  unfold munmap unmapped
  rw [if_neg (by simp only [Bool.true_eq_false, or_false]; push Not; exact ⟨h1, h2⟩)]

theorem closeAt_ok (K : Kernel) (q x len : Nat) (h1 : len ≠ 0) (h2 : x % K.P = 0) :
    closeAt K q (x, len) true = (.success, unmapped K q x (alignUp len K.P)) := by
  unfold closeAt
  dsimp only
  rw [munmap_ok _ _ _ _ h1 h2]
  simp

theorem close_spec (K : Kernel) (c : Prov) (x size : Nat) (hP : 0 < K.P ∧ MB2 % K.P = 0) (hs : 0 < size) (hx : x % K.P = 0)
    (hc : CanClose c x) : closeHandle K c x size true = (.success, unmapped K c.pid x (regLen K.P c size)) := by
  have hM : 0 < MB2 := by unfold MB2; decide
  have hL : alignUp size MB2 ≠ 0 := (alignUp_pos size MB2 hM hs).ne'
  have hA := alignUp_alignUp size K.P hP.1 hP.2
  cases c with
  | os q ipc fd name p o =>
    cases (show ipc = true from hc)
    change closeAt K q (x, size) true = (.success, unmapped K q x (alignUp size K.P))
    exact closeAt_ok _ _ _ _ hs.ne' hx
  | file q ipc fsdax path p o =>
    obtain ⟨h1, h2⟩ := hc
    cases h1
    change closeAt K q (if fsdax = true then alignPtrDownSizeUp x size MB2 else (x, size)) true = _
    by_cases hf : fsdax = true
    · have e : regLen K.P (.file q true fsdax path p o) size = alignUp size MB2 := if_pos hf
      rw [if_pos hf, align_aligned _ _ (h2 hf), e, closeAt_ok _ _ _ _ hL hx, hA]
      rfl
    · have e : regLen K.P (.file q true fsdax path p o) size = alignUp size K.P := if_neg hf
      rw [if_neg hf, e, closeAt_ok _ _ _ _ hs.ne' hx]
      rfl
  | devdax q path p b =>
    change closeAt K q (x, alignUp size MB2) true = (.success, unmapped K q x (alignUp size MB2))
    rw [closeAt_ok _ _ _ _ hL hx, hA]

/-- A handle that was given out says where the bytes are. -/
structure GoodGiven (g : Given) : Prop where
  pos : 0 < g.size
  bytes : ∀ i < g.size, g.bytes i = some ⟨some g.file, g.off + i, g.by_.prot, true⟩
  form : g.h = match g.by_ with
    | .os pid _ fd name prot _ => .os pid (if name.length > 0 then 0 else fd) g.off g.size prot name
    | .file _ _ _ path prot _ => .file path g.off g.size prot
    | .devdax _ path prot _ => .devdax path prot g.off g.size

/-- An open handle shows the bytes and can be closed. -/
structure GoodOpened (K : Kernel) (o : Opened) : Prop where
  page : 0 < K.P ∧ MB2 % K.P = 0
  pos : 0 < o.g.size
  ptr : o.ptr % K.P = 0
  can : CanClose o.c o.ptr
  new : ∀ y, o.new y ↔ o.ptr ≤ y ∧ y < o.ptr + regLen K.P o.c o.g.size
  all : ∀ y, o.new y → K.mem o.c.pid y ≠ none
  bytes : ∀ i < o.g.size, K.mem o.c.pid (o.ptr + i) = o.g.bytes i
  some_ : ∀ i < o.g.size, o.g.bytes i ≠ none

/-- Two open handles are at different addresses. -/
def Apart (o o' : Opened) : Prop := o.c.pid = o'.c.pid → ∀ y, ¬ (o.new y ∧ o'.new y)

theorem le_regLen (P : Nat) (c : Prov) (s : Nat) (hP : 0 < P) : s ≤ regLen P c s := by
  have hM : 0 < MB2 := by unfold MB2; decide
  cases c with
  | os => exact le_alignUp _ _ hP
  | file q ipc fsdax path p o =>
    by_cases hf : fsdax = true
    · have e : regLen P (.file q ipc fsdax path p o) s = alignUp s MB2 := if_pos hf
      rw [e]; exact le_alignUp _ _ hM
    · have e : regLen P (.file q ipc fsdax path p o) s = alignUp s P := if_neg hf
      rw [e]; exact le_alignUp _ _ hP
  | devdax => exact le_alignUp _ _ hM

theorem getHandle_good {K : Kernel} {s : Prov} {ptr size file off : Nat} {h : Handle} (ha : Alloc K s ptr size file off)
    (e : getHandle s ptr size = (.success, some h)) :
    GoodGiven ⟨h, s, size, file, off, fun i => K.mem s.pid (ptr + i)⟩ := by
  obtain ⟨h1, h2, h3, h4⟩ := ha
  refine ⟨h1, fun i hi => h3 i hi, ?_⟩
  cases s with
  | os q ipc fd name p o =>
    obtain ⟨h5, h6⟩ := h4
    simp only [getHandle, h5, h6] at e
    rw [if_neg (by simp), if_neg (by omega)] at e
    cases e
    simp
  | file q ipc fsdax path p o =>
    obtain ⟨h5, h6⟩ := h4
    simp only [getHandle, h5, h6] at e
    rw [if_neg (by simp), if_neg (by omega)] at e
    cases e
    simp
  | devdax q path p b =>
    simp only [getHandle] at e
    cases e
    dsimp only at h4 ⊢
    congr 1
    omega

/-- What opening a handle that was given out does. -/
theorem open_spec {K : Kernel} {c : Prov} {g : Given} {a : Ans} (hg : GoodGiven g) (hr : Ready c g.by_) (hb : Backs K g.by_ g.file)
    (hd : a.dupErr ≠ .success) (hp : Plain K c g.off a) :
    OpenSpec K c g.size g.file g.off g.by_.prot (openHandle K c g.h a) := by
  obtain ⟨hP, h0, hdax⟩ := hp
  rcases g with ⟨h, s, size, file, off, bytes⟩
  have hf := hg.form
  dsimp only at hf hr hb hdax ⊢
  cases s with
  | os pid ipc fd name p o =>
    cases c with
    | os q ipc' fd' name' p' o' =>
      cases (show ipc' = true from hr)
      dsimp only at hf
      rw [hf]
      refine osOpen_spec q fd' name' p' o' _ _ off size _ file name a hd h0 ?_
      simp only [Backs] at hb
      by_cases hn : name = ""
      · rw [if_pos hn] at hb ⊢
        rw [if_neg (by simp [hn])]; exact hb
      · rw [if_neg hn] at hb ⊢
        exact hb
    | file => exact absurd hr (by simp [Ready])
    | devdax => exact absurd hr (by simp [Ready])
  | file pid ipc fsdax path p o =>
    cases c with
    | file q ipc' fsdax' path' p' o' =>
      cases (show ipc' = true from hr)
      dsimp only at hf
      rw [hf]
      exact fileOpen_spec q fsdax' path' p' o' off size _ file path a hP h0 hb hdax
    | os => exact absurd hr (by simp [Ready])
    | devdax => exact absurd hr (by simp [Ready])
  | devdax pid path p b =>
    cases c with
    | devdax q path' p' b' =>
      dsimp only at hf
      rw [hf]
      exact devdaxOpen_spec q path' p' b' off size _ file path a hP h0 hb hdax.1 hdax.2
    | os => exact absurd hr (by simp [Ready])
    | file => exact absurd hr (by simp [Ready])

theorem canClose_of_ready {c s : Prov} {x : Nat} (hr : Ready c s) (hx : PlacedOk c x) : CanClose c x := by
  cases c <;> cases s <;> first
    | exact ⟨hr, hx⟩
    | exact hr
    | exact (show False from hr).elim
    | trivial

/-- The new open handle. -/
theorem opened_good {K K' : Kernel} {c : Prov} {g : Given} {x : Nat} (hg : GoodGiven g) (hr : Ready c g.by_)
    (hP : 0 < K.P ∧ MB2 % K.P = 0)
    (h : OpenSpec K c g.size g.file g.off g.by_.prot (.success, some x, K')) :
    GoodOpened K' ⟨c, x, g, fun y => K.mem c.pid y = none ∧ K'.mem c.pid y ≠ none⟩ ∧
    K'.P = K.P ∧ K'.fd = K.fd ∧
    (∀ q y, ¬ (q = c.pid ∧ K.mem c.pid y = none ∧ K'.mem c.pid y ≠ none) → K'.mem q y = K.mem q y) := by
  obtain ⟨x', K1, len, hx, hS, hm, hl, hal⟩ := h.ok rfl
  cases hx
  obtain ⟨s1, s2, s3, s4⟩ := hS
  obtain ⟨m1, m2, m3, m4, m5⟩ := hm
  dsimp only at m5
  have hlen : alignUp len K1.P = regLen K.P c g.size := by rw [s1]; exact hl
  have hP' : K'.P = K.P := by rw [m5]; exact s1
  have hmem : K'.mem = setAt K.mem c.pid fun y =>
      if x ≤ y ∧ y < x + regLen K.P c g.size then some ⟨some g.file, g.off + (y - x), g.by_.prot, true⟩ else K.mem c.pid y := by
    rw [m5]; simp only [mapAt, hlen, s2]
  have hin : ∀ y, x ≤ y ∧ y < x + regLen K.P c g.size → K.mem c.pid y = none := by
    intro y hy
    have := m4 (y - x) (by rw [hlen]; omega)
    rw [s2, show x + (y - x) = y by omega] at this
    exact this
  have hnew : ∀ y, (K.mem c.pid y = none ∧ K'.mem c.pid y ≠ none) ↔ x ≤ y ∧ y < x + regLen K.P c g.size := by
    intro y
    rw [hmem, setAt_self]
    constructor
    · rintro ⟨h1, h2⟩
      by_contra hc
      rw [if_neg hc] at h2
      exact h2 h1
    · intro hy
      rw [if_pos hy]
      exact ⟨hin y hy, by simp⟩
  refine ⟨⟨?_, hg.pos, ?_, canClose_of_ready hr hal, ?_, fun y hy => hy.2, ?_, ?_⟩, hP', by rw [m5]; exact s3, ?_⟩
  · rw [hP']; exact hP
  · rw [hP', ← s1]; exact m3
  · rw [hP']; exact hnew
  · intro i hi
    dsimp only at hi ⊢
    have := le_regLen K.P c g.size hP.1
    rw [hmem, setAt_self, if_pos ⟨by omega, by omega⟩, hg.bytes i hi]
    congr 3
    omega
  · intro i hi
    dsimp only at hi ⊢
    rw [hg.bytes i hi]; simp
  · intro q y hn
    rw [hmem]
    by_cases hq : q = c.pid
    · subst hq
      rw [setAt_self]
      rw [if_neg]
      intro hy
      exact hn ⟨rfl, (hnew y).2 hy⟩
    · rw [setAt_ne _ _ hq]

theorem GoodOpened.congr {K K' : Kernel} {o : Opened} (h : GoodOpened K o) (hP : K'.P = K.P)
    (hm : ∀ y, o.new y → K'.mem o.c.pid y = K.mem o.c.pid y) : GoodOpened K' o := by
  obtain ⟨h1, h2, h3, h4, h5, h6, h7, h8⟩ := h
  refine ⟨by rw [hP]; exact h1, h2, by rw [hP]; exact h3, h4, by rw [hP]; exact h5, fun y hy => by rw [hm y hy]; exact h6 y hy,
    fun i hi => ?_, h8⟩
  have := le_regLen K.P o.c o.g.size h1.1
  rw [hm _ ((h5 _).2 ⟨by omega, by omega⟩)]
  exact h7 i hi

/-- The invariant. -/
structure Inv (K : Kernel) (G : List Given) (O : List Opened) : Prop where
  given : ∀ g ∈ G, GoodGiven g
  opened : ∀ o ∈ O, GoodOpened K o
  apart : O.Pairwise Apart

theorem Apart.symm {o o' : Opened} (h : Apart o o') : Apart o' o := fun e y hy => h e.symm y hy.symm

theorem hist_inv {K : Kernel} {G : List Given} {O : List Opened} (h : Hist K G O) : Inv K G O := by
  induction h with
  | start K => exact ⟨by simp, by simp, .nil⟩
  | env _ hP hm ih => exact ⟨ih.given, fun o ho => (ih.opened o ho).congr hP (hm o ho), ih.apart⟩
  | get s ptr size file off h _ ha e ih =>
    refine ⟨?_, ih.opened, ih.apart⟩
    intro g hg
    rcases List.mem_cons.1 hg with rfl | hg
    · exact getHandle_good ha e
    · exact ih.given g hg
  | @openOk K K' G O c g a x _ hg hr hb hd hp e ih =>
    have hs := open_spec (ih.given g hg) hr hb hd hp
    rw [e] at hs
    obtain ⟨h1, h2, h3, h4⟩ := opened_good (ih.given g hg) hr hp.page hs
    have hkeep : ∀ o ∈ O, ∀ y, o.new y → K'.mem o.c.pid y = K.mem o.c.pid y := by
      intro o ho y hy
      apply h4
      rintro ⟨hq, hn, -⟩
      have := (ih.opened o ho).all y hy
      rw [hq] at this
      exact this hn
    refine ⟨ih.given, ?_, ?_⟩
    · intro o ho
      rcases List.mem_cons.1 ho with rfl | ho
      · exact h1
      · exact (ih.opened o ho).congr h2 (hkeep o ho)
    · refine List.pairwise_cons.2 ⟨?_, ih.apart⟩
      rintro o ho hpid y ⟨hy, hy'⟩
      have := (ih.opened o ho).all y hy'
      dsimp only at hpid hy
      rw [← hpid] at this
      exact this hy.1
  | @openFail K K' G O c g a r p _ hg hr hb hd hp hne e ih =>
    have hs := open_spec (ih.given g hg) hr hb hd hp
    rw [e] at hs
    obtain ⟨-, s1, s2, s3, s4⟩ := hs.fail hne
    dsimp only at s1 s2
    exact ⟨ih.given, fun o ho => (ih.opened o ho).congr s1 (fun y _ => by rw [s2]), ih.apart⟩
  | @close K K' G O₁ o O₂ _ e ih =>
    have ho := ih.opened o (by simp)
    rw [close_spec K o.c o.ptr o.g.size ho.page ho.pos ho.ptr ho.can] at e
    cases e
    have hap := ih.apart
    rw [List.pairwise_append] at hap
    obtain ⟨p1, p2, p3⟩ := hap
    rw [List.pairwise_cons] at p2
    have hone : ∀ o' ∈ O₁ ++ O₂, Apart o o' := by
      intro o' h'
      rcases List.mem_append.1 h' with h' | h'
      · exact (p3 o' h' o (by simp)).symm
      · exact p2.1 o' h'
    refine ⟨ih.given, ?_, ?_⟩
    · intro o' h'
      have hin : o' ∈ O₁ ++ o :: O₂ := by
        rcases List.mem_append.1 h' with h' | h' <;> simp [h']
      refine (ih.opened o' hin).congr rfl ?_
      intro y hy
      unfold unmapped
      dsimp only
      by_cases hq : o'.c.pid = o.c.pid
      · rw [hq, setAt_self, if_neg]
        intro hc
        exact hone o' h' hq.symm y ⟨(ho.new y).2 hc, hy⟩
      · rw [setAt_ne _ _ hq]
    · exact List.pairwise_append.2 ⟨p1, p2.2, fun a ha b hb => p3 a ha b (by simp [hb])⟩

end Verif.CpuIpc
