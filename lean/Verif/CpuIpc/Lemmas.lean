import Verif.CpuIpc.Spec
import Mathlib.Tactic.Ring
import Mathlib.Tactic.Linarith
import Mathlib.Tactic.SplitIfs
/-!
# Lemmas on mapping, opening and closing
-/
namespace Verif.CpuIpc

theorem setAt_self {α : Type} (f : Nat → α) (q : Nat) (v : α) : setAt f q v q = v := by simp [setAt]

theorem setAt_ne {α : Type} (f : Nat → α) {q x : Nat} (v : α) (h : x ≠ q) : setAt f q v x = f x := by simp [setAt, h]

theorem le_alignUp (n a : Nat) (h : 0 < a) : n ≤ alignUp n a := by
  unfold alignUp
  have := Nat.div_add_mod (n + (a - 1)) a
  have := Nat.mod_lt (n + (a - 1)) h
  have : a * ((n + (a - 1)) / a) = (n + (a - 1)) / a * a := Nat.mul_comm _ _
  omega

theorem alignUp_mod (n a : Nat) : alignUp n a % a = 0 := by simp [alignUp]

theorem alignUp_of_mod (n a : Nat) (ha : 0 < a) (h : n % a = 0) : alignUp n a = n := by
  obtain ⟨k, rfl⟩ := Nat.dvd_of_mod_eq_zero h
  unfold alignUp
  have : (a * k + (a - 1)) / a = k := by
    rw [Nat.mul_add_div ha, Nat.div_eq_of_lt (by omega)]; omega
  rw [this, Nat.mul_comm]

theorem alignUp_alignUp (n P : Nat) (hP : 0 < P) (h : MB2 % P = 0) : alignUp (alignUp n MB2) P = alignUp n MB2 := by
  apply alignUp_of_mod _ _ hP
  have h1 : MB2 ∣ alignUp n MB2 := Nat.dvd_of_mod_eq_zero (alignUp_mod n MB2)
  exact Nat.mod_eq_zero_of_dvd ((Nat.dvd_of_mod_eq_zero h).trans h1)

theorem alignUp_pos (n a : Nat) (ha : 0 < a) (h : 0 < n) : 0 < alignUp n a :=
  lt_of_lt_of_le h (le_alignUp n a ha)

theorem align_aligned (p s : Nat) (h : p % MB2 = 0) : alignPtrDownSizeUp p s MB2 = (p, alignUp s MB2) := by
  simp [alignPtrDownSizeUp, h]

/-- How many bytes of addresses an open handle takes. -/
def regLen (P : Nat) : Prov → Nat → Nat
  | .os .., s => alignUp s P
  | .file _ _ fsdax .., s => if fsdax = true then alignUp s MB2 else alignUp s P
  | .devdax .., s => alignUp s MB2

theorem mmap_spec {K K' : Kernel} {q len n file off prot : Nat} {sh sy : Bool} {a r : Option Nat} (hn : n ≠ 0)
    (h : mmap K q len n file off prot sh sy a = (r, K')) :
    (r = none ∧ K' = K) ∨ ∃ x, r = some x ∧ a = some x ∧ len ≠ 0 ∧ off % K.P = 0 ∧ 0 < x ∧ x % K.P = 0 ∧
      (∀ i < alignUp len K.P, K.mem q (x + i) = none) ∧ K' = mapAt K q x len (some file) off prot sh := by
  unfold mmap at h
  split_ifs at h with h1 h2
  · cases h; exact .inl ⟨rfl, rfl⟩
  · exact absurd h2.1 hn
  · cases a with
    | none => cases h; exact .inl ⟨rfl, rfl⟩
    | some x =>
      dsimp only at h
      split_ifs at h with h3
      · cases h
        push Not at h1
        exact .inr ⟨x, rfl, rfl, h1.1, h1.2, h3.1, h3.2.1, h3.2.2, rfl⟩
      · cases h; exact .inl ⟨rfl, rfl⟩

/-- A mapping at `x` as the kernel makes it. -/
structure Mapped (K : Kernel) (q x len file off prot : Nat) (K' : Kernel) : Prop where
  len0 : len ≠ 0
  pos : 0 < x
  page : x % K.P = 0
  free : ∀ i < alignUp len K.P, K.mem q (x + i) = none
  eq : K' = mapAt K q x len (some file) off prot true

theorem mmapFile_spec {K K' : Kernel} {q len n file off prot : Nat} {a : Ans} {r : Option Nat} {s : Bool} (hn : n ≠ 0)
    (h : mmapFile K q len n file off prot false a = (r, s, K')) :
    (r = none ∧ s = false ∧ K' = K) ∨ ∃ x, r = some x ∧ (a.sync = some x ∨ a.plain = some x) ∧
      Mapped K q x len file off prot K' := by
  unfold mmapFile at h
  rw [if_neg (by simp)] at h
  rcases e : mmap K q len n file off prot true true a.sync with ⟨r1, K1⟩
  rcases mmap_spec hn e with ⟨rfl, rfl⟩ | ⟨x, rfl, hx, h1, h2, h3, h4, h5, rfl⟩
  · rw [e] at h
    dsimp only at h
    split_ifs at h with h1
    · rcases e2 : mmap K1 q len n file off prot true false a.plain with ⟨r2, K2⟩
      rw [e2] at h
      cases h
      rcases mmap_spec hn e2 with ⟨rfl, rfl⟩ | ⟨x, rfl, hx, h1, h2, h3, h4, h5, rfl⟩
      · exact .inl ⟨rfl, rfl, rfl⟩
      · exact .inr ⟨x, rfl, .inr hx, h1, h3, h4, h5, rfl⟩
    · cases h; exact .inl ⟨rfl, rfl, rfl⟩
  · rw [e] at h
    cases h
    exact .inr ⟨x, rfl, .inl hx, h1, h3, h4, h5, rfl⟩

theorem setFd_setFd (K : Kernel) (q n : Nat) (f : Option Nat) (h : K.fd q n = none) : setFd (setFd K q n f) q n none = K := by
  cases K
  simp only [setFd, Kernel.mk.injEq, true_and, and_true]
  funext y z
  by_cases hy : y = q
  · subst hy
    by_cases hz : z = n
    · subst hz; simpa [setAt] using h.symm
    · simp [setAt, hz]
  · simp [setAt, hy]

theorem setFd_mapAt (K : Kernel) (q n m x len : Nat) (file : Option Nat) (off prot : Nat) (sh : Bool) (f : Option Nat) :
    setFd (mapAt K q x len file off prot sh) m n f = mapAt (setFd K m n f) q x len file off prot sh := rfl

theorem mapped_fd {K K' : Kernel} {q x len file off prot n f : Nat} (hn : K.fd q n = none)
    (h : Mapped (setFd K q n (some f)) q x len file off prot K') : Mapped K q x len file off prot (setFd K' q n none) := by
  obtain ⟨h1, h2, h3, h4, h5⟩ := h
  refine ⟨h1, h2, h3, h4, ?_⟩
  rw [h5, setFd_mapAt, setFd_setFd _ _ _ _ hn]

theorem fdFor_spec {a : Ans} {K : Kernel} {q n : Nat} (h : a.fdFor K q = some n) : a.newFd = some n ∧ K.fd q n = none := by
  unfold Ans.fdFor at h
  split at h
  · split_ifs at h with h1
    cases h
    exact ⟨by assumption, h1⟩
  · cases h

/-- Two kernels that differ in the names of shared memory files only. -/
def SameBut (K K' : Kernel) : Prop := K'.P = K.P ∧ K'.mem = K.mem ∧ K'.fd = K.fd ∧ K'.path = K.path

/-- An fsdax mapping begins at a multiple of 2 MB. -/
def PlacedOk : Prov → Nat → Prop
  | .file _ _ fsdax .., x => fsdax = true → x % MB2 = 0
  | _, _ => True

/-- What opening does. -/
structure OpenSpec (K : Kernel) (c : Prov) (size file off prot : Nat) (r : Res × Option Nat × Kernel) : Prop where
  ok : r.1 = .success → ∃ x K1 len, r.2.1 = some x ∧ SameBut K K1 ∧ Mapped K1 c.pid x len file off prot r.2.2 ∧
    alignUp len K.P = regLen K.P c size ∧ PlacedOk c x
  fail : r.1 ≠ .success → r.2.1 = none ∧ SameBut K r.2.2

theorem SameBut.refl (K : Kernel) : SameBut K K := ⟨rfl, rfl, rfl, rfl⟩

theorem osMap_spec {K K0 : Kernel} (q : Nat) (ipc : Bool) (fd : Nat) (name : String) (p : Nat) (o : Nat → Nat)
    (n f size off prot : Nat) (a : Ans) (hn : n ≠ 0) (hf : K.fd q n = none) (hK : SameBut K0 K) :
    OpenSpec K0 (.os q ipc fd name p o) size f off prot (osMap K q n f size off prot a) := by
  unfold osMap
  rcases e : mmap (setFd K q n (some f)) q size n f off prot true false a.plain with ⟨r1, K1⟩
  rcases mmap_spec hn e with ⟨rfl, rfl⟩ | ⟨x, rfl, hx, h1, h2, h3, h4, h5, rfl⟩
  · refine ⟨(by intro h; cases h), fun _ => ⟨rfl, ?_⟩⟩
    dsimp only
    rw [setFd_setFd _ _ _ _ hf]; exact hK
  · refine ⟨fun _ => ⟨x, K, size, rfl, hK, ?_, by rw [regLen], trivial⟩, fun h => absurd rfl h⟩
    exact mapped_fd hf ⟨h1, h3, h4, h5, rfl⟩

theorem osOpen_spec {K : Kernel} (q : Nat) (fd0 : Nat) (name0 : String) (p : Nat) (o : Nat → Nat) (pid fd off size prot f : Nat)
    (name : String) (a : Ans) (hd : a.dupErr ≠ .success) (h0 : a.newFd ≠ some 0)
    (hb : if name = "" then K.fd pid fd = some f else K.shm name = some f) :
    OpenSpec K (.os q true fd0 name0 p o) size f off prot (osOpen K q true pid fd off size prot name a) := by
  unfold osOpen
  rw [if_neg (by simp)]
  by_cases hl : name.length > 0
  · have hne : name ≠ "" := by rintro rfl; simp at hl
    rw [if_pos hl]
    rw [if_neg hne] at hb
    rw [hb]
    dsimp only
    cases e : a.fdFor K q with
    | none => exact ⟨(by intro h; cases h), fun _ => ⟨rfl, .refl K⟩⟩
    | some n =>
      dsimp only
      obtain ⟨h1, h2⟩ := fdFor_spec e
      have hn : n ≠ 0 := by rintro rfl; exact h0 h1
      rw [if_neg (by omega)]
      exact osMap_spec (K0 := K) q true fd0 name0 p o n f size off prot a hn h2 ⟨rfl, rfl, rfl, rfl⟩
  · have hne : name = "" := by
      have : name.length = 0 := by omega
      simpa using this
    rw [if_neg hl]
    rw [if_pos hne] at hb
    rw [hb]
    dsimp only
    cases e : a.fdFor K q with
    | none => exact ⟨(by intro h; exact absurd h hd), fun _ => ⟨rfl, .refl K⟩⟩
    | some n =>
      dsimp only
      obtain ⟨h1, h2⟩ := fdFor_spec e
      have hn : n ≠ 0 := by rintro rfl; exact h0 h1
      exact osMap_spec (K0 := K) q true fd0 name0 p o n f size off prot a hn h2 (.refl K)

theorem fileOpen_spec {K : Kernel} (q : Nat) (fsdax : Bool) (path0 : String) (p : Nat) (o : Nat → Nat) (off size prot f : Nat)
    (path : String) (a : Ans) (hP : 0 < K.P ∧ MB2 % K.P = 0) (h0 : a.newFd ≠ some 0) (hb : K.path path = some f)
    (hd : fsdax = true → off % MB2 = 0 ∧ (∀ x, a.sync = some x → x % MB2 = 0) ∧ (∀ x, a.plain = some x → x % MB2 = 0)) :
    OpenSpec K (.file q true fsdax path0 p o) size f off prot (fileOpen K q true fsdax path off size prot a) := by
  unfold fileOpen
  rw [if_neg (by simp), hb]
  dsimp only
  cases e : a.fdFor K q with
  | none => exact ⟨(by intro h; cases h), fun _ => ⟨rfl, .refl K⟩⟩
  | some n =>
    dsimp only
    obtain ⟨h1, h2⟩ := fdFor_spec e
    have hn : n ≠ 0 := by rintro rfl; exact h0 h1
    have hal : (if fsdax = true then alignPtrDownSizeUp off size MB2 else (off, size)) =
        (off, if fsdax = true then alignUp size MB2 else size) := by
      by_cases hfs : fsdax = true
      · rw [if_pos hfs, if_pos hfs, align_aligned _ _ (hd hfs).1]
      · rw [if_neg hfs, if_neg hfs]
    rw [hal]
    dsimp only
    rcases e2 : mmapFile (setFd K q n (some f)) q (if fsdax = true then alignUp size MB2 else size) n f off prot
      false a with ⟨r1, s1, K1⟩
    rcases mmapFile_spec hn e2 with ⟨rfl, rfl, rfl⟩ | ⟨x, rfl, hx, hm⟩
    · refine ⟨(by intro h; cases h), fun _ => ⟨rfl, ?_⟩⟩
      dsimp only
      rw [setFd_setFd _ _ _ _ h2]; exact .refl K
    · refine ⟨fun _ => ⟨x, K, _, rfl, .refl K, mapped_fd h2 hm, ?_, ?_⟩, fun h => absurd rfl h⟩
      · by_cases hfs : fsdax = true
        · rw [if_pos hfs, regLen, if_pos hfs, alignUp_alignUp _ _ hP.1 hP.2]
        · rw [if_neg hfs, regLen, if_neg hfs]
      · intro hfs
        rcases hx with hx | hx
        · exact (hd hfs).2.1 x hx
        · exact (hd hfs).2.2 x hx

theorem munmap_mapAt {K K' : Kernel} {q x len file off prot : Nat} (h : Mapped K q x len file off prot K') :
    (munmap K' q x len true).2 = K := by
  obtain ⟨h1, h2, h3, h4, rfl⟩ := h
  unfold munmap
  rw [if_neg (by simp only [Bool.true_eq_false, or_false]; push Not; exact ⟨h1, h3⟩)]
  cases K
  simp only [mapAt, Kernel.mk.injEq, true_and, and_true]
  funext y z
  by_cases hy : y = q
  · subst hy
    simp only [setAt, if_true]
    split_ifs with hz
    · have := h4 (z - x) (by dsimp only; omega)
      rw [show x + (z - x) = z by omega] at this
      exact this.symm
    · rfl
  · simp [setAt, hy]

theorem regLen_devdax (P q : Nat) (path : String) (p b s : Nat) (hP : 0 < P ∧ MB2 % P = 0) :
    alignUp (alignUp s MB2) P = regLen P (.devdax q path p b) s := by
  rw [alignUp_alignUp _ _ hP.1 hP.2]; rfl

theorem devdaxOpen_spec {K : Kernel} (q : Nat) (path0 : String) (p b : Nat) (off size prot f : Nat)
    (path : String) (a : Ans) (hP : 0 < K.P ∧ MB2 % K.P = 0) (h0 : a.newFd ≠ some 0) (hb : K.path path = some f)
    (hd : off % MB2 = 0) (hu : a.unmapOk = true) :
    OpenSpec K (.devdax q path0 p b) size f off prot (devdaxOpen K q path prot off size a) := by
  obtain ⟨L, hal, hL⟩ : ∃ L, alignPtrDownSizeUp off size MB2 = (off, L) ∧
      alignUp L K.P = regLen K.P (.devdax q path0 p b) size :=
    ⟨alignUp size MB2, align_aligned _ _ hd, regLen_devdax K.P q path0 p b size hP⟩
  unfold devdaxOpen
  rw [hb, hal]
  cases e : a.fdFor K q with
  | none => exact ⟨(by intro h; cases h), fun _ => ⟨rfl, .refl K⟩⟩
  | some n =>
    dsimp only
    obtain ⟨h1, h2⟩ := fdFor_spec e
    have hn : n ≠ 0 := by rintro rfl; exact h0 h1
    rcases e2 : mmapFile (setFd K q n (some f)) q L n f off prot false a with ⟨r1, s1, K1⟩
    rcases mmapFile_spec hn e2 with ⟨rfl, rfl, rfl⟩ | ⟨x, rfl, hx, hm⟩
    · refine ⟨(by intro h; cases h), fun _ => ⟨rfl, ?_⟩⟩
      dsimp only
      rw [setFd_setFd _ _ _ _ h2]; exact .refl K
    · have hm' := mapped_fd h2 hm
      change OpenSpec _ _ _ _ _ _ (if s1 = false then (.unknown, none, (munmap (setFd K1 q n none) q x L a.unmapOk).2)
        else (.success, some x, setFd K1 q n none))
      by_cases hs : s1 = false
      · rw [if_pos hs]
        refine ⟨(by intro h; cases h), fun _ => ⟨rfl, ?_⟩⟩
        dsimp only
        rw [hu, munmap_mapAt hm']
        exact .refl K
      · rw [if_neg hs]
        exact ⟨fun _ => ⟨x, K, _, rfl, .refl K, hm', hL, trivial⟩,
          fun h => absurd rfl h⟩

end Verif.CpuIpc
