import Verif.CpuIpc.Inv
/-!
# C69: IPC handles of the OS, file and devdax providers
-/
namespace Verif.CpuIpc

/-- C69 (outside the cases of `Plain`): in any history of any number of processes, every byte of an open handle shows the byte of
the file that the allocation showed when the handle was made, with the protection of the exporting provider, and writes go to the file. -/
theorem C69_bytes_partial {K : Kernel} {G : List Given} {O : List Opened} (h : Hist K G O) (o : Opened) (ho : o ∈ O) :
    ∀ i < o.g.size, K.mem o.c.pid (o.ptr + i) = o.g.bytes i ∧ o.g.bytes i ≠ none := fun i hi =>
  ⟨((hist_inv h).opened o ho).bytes i hi, ((hist_inv h).opened o ho).some_ i hi⟩

/-- C69: opening leaves all memory that was mapped, in every process, and all descriptors as they were; when it fails nothing at
all is mapped and no address is given; when it works the bytes are there. -/
theorem C69_open_partial {K K' : Kernel} {G : List Given} {O : List Opened} (h : Hist K G O) (g : Given) (hg : g ∈ G) (c : Prov)
    (a : Ans) (hr : Ready c g.by_) (hb : Backs K g.by_ g.file) (hd : a.dupErr ≠ .success) (hp : Plain K c g.off a) (r : Res)
    (p : Option Nat) (e : openHandle K c g.h a = (r, p, K')) :
    K'.fd = K.fd ∧ (∀ q y, K.mem q y ≠ none → K'.mem q y = K.mem q y) ∧ (∀ q, q ≠ c.pid → K'.mem q = K.mem q) ∧
    (r ≠ .success → p = none ∧ K'.mem = K.mem) ∧
    (r = .success → ∃ x, p = some x ∧ ∀ i < g.size, K'.mem c.pid (x + i) = g.bytes i) := by
  have hG := (hist_inv h).given g hg
  have hs := open_spec hG hr hb hd hp
  rw [e] at hs
  by_cases hk : r = .success
  · subst hk
    obtain ⟨x, _, _, hx, _⟩ := hs.ok rfl
    dsimp only at hx
    subst hx
    obtain ⟨h1, h2, h3, h4⟩ := opened_good hG hr hp.page hs
    refine ⟨h3, ?_, ?_, fun hn => absurd rfl hn, fun _ => ⟨x, rfl, h1.bytes⟩⟩
    · intro q y hy
      apply h4
      rintro ⟨rfl, hn, -⟩
      exact hy hn
    · intro q hq
      funext y
      apply h4
      rintro ⟨rfl, -⟩
      exact hq rfl
  · obtain ⟨h1, s1, s2, s3, s4⟩ := hs.fail hk
    dsimp only at h1 s2 s3
    exact ⟨s3, fun q y _ => by rw [s2], fun q _ => by rw [s2], fun _ => ⟨h1, s2⟩, fun hn => absurd hn hk⟩

/-- C69: closing an open handle works, unmaps exactly the addresses that opening put memory at, and touches nothing else in any
process. -/
theorem C69_close_partial {K : Kernel} {G : List Given} {O : List Opened} (h : Hist K G O) (o : Opened) (ho : o ∈ O) :
    ∃ K', closeHandle K o.c o.ptr o.g.size true = (.success, K') ∧ K'.fd = K.fd ∧
      (∀ y, o.new y → K'.mem o.c.pid y = none) ∧ (∀ q y, ¬ (q = o.c.pid ∧ o.new y) → K'.mem q y = K.mem q y) := by
  have hg := (hist_inv h).opened o ho
  refine ⟨_, close_spec K o.c o.ptr o.g.size hg.page hg.pos hg.ptr hg.can, rfl, ?_, ?_⟩
  · intro y hy
    unfold unmapped
    dsimp only
    rw [setAt_self, if_pos ((hg.new y).1 hy)]
  · intro q y hn
    unfold unmapped
    dsimp only
    by_cases hq : q = o.c.pid
    · subst hq
      rw [setAt_self, if_neg]
      exact fun hc => hn ⟨rfl, (hg.new y).2 hc⟩
    · rw [setAt_ne _ _ hq]

/-- Every address of an open handle's data is among those that closing unmaps. -/
theorem C69_covered_partial {K : Kernel} {G : List Given} {O : List Opened} (h : Hist K G O) (o : Opened) (ho : o ∈ O) :
    ∀ i < o.g.size, o.new (o.ptr + i) := by
  have hg := (hist_inv h).opened o ho
  intro i hi
  have := le_regLen K.P o.c o.g.size hg.page.1
  exact (hg.new _).2 ⟨by omega, by omega⟩

/-- The provider needs mappings with `MAP_SYNC`. -/
def Prov.needsSync : Prov → Prop
  | .devdax .. => True
  | _ => False

/-- The kernel has room: a free descriptor, and nothing is mapped at `x` or above. It may refuse `MAP_SYNC` as not supported, unless the
file is a device. -/
structure Room (K : Kernel) (c : Prov) (a : Ans) (x : Nat) : Prop where
  fd : ∃ n, a.newFd = some n ∧ K.fd c.pid n = none
  pos : 0 < x
  page : x % K.P = 0
  free : ∀ y, x ≤ y → K.mem c.pid y = none
  sync : a.sync = some x ∨ a.sync = none ∧ a.retry = true ∧ ¬ c.needsSync
  plain : a.plain = some x

theorem mmap_room {K : Kernel} {q len n file off prot x : Nat} {sh sy : Bool} (hn : n ≠ 0) (h1 : len ≠ 0) (h2 : off % K.P = 0)
    (h3 : 0 < x) (h4 : x % K.P = 0) (h5 : ∀ y, x ≤ y → K.mem q y = none) :
    mmap K q len n file off prot sh sy (some x) = (some x, mapAt K q x len (some file) off prot sh) := by
  unfold mmap
  rw [if_neg (by push Not; exact ⟨h1, h2⟩), if_neg (fun h => hn h.1)]
  dsimp only
  rw [if_pos ⟨h3, h4, fun i _ => h5 _ (by omega)⟩, if_neg hn]

theorem mmapFile_room {K : Kernel} {q len n file off prot x : Nat} {a : Ans} (hn : n ≠ 0) (h1 : len ≠ 0) (h2 : off % K.P = 0)
    (h3 : 0 < x) (h4 : x % K.P = 0) (h5 : ∀ y, x ≤ y → K.mem q y = none) (h6 : a.sync = some x) :
    mmapFile K q len n file off prot false a = (some x, true, mapAt K q x len (some file) off prot true) := by
  unfold mmapFile
  rw [if_neg (by simp), h6, mmap_room hn h1 h2 h3 h4 h5]

theorem mmapFile_room2 {K : Kernel} {q len n file off prot x : Nat} {a : Ans} (hn : n ≠ 0) (h1 : len ≠ 0) (h2 : off % K.P = 0)
    (h3 : 0 < x) (h4 : x % K.P = 0) (h5 : ∀ y, x ≤ y → K.mem q y = none) (h6 : a.sync = none) (h7 : a.retry = true)
    (h8 : a.plain = some x) :
    mmapFile K q len n file off prot false a = (some x, false, mapAt K q x len (some file) off prot true) := by
  have e : mmap K q len n file off prot true true none = (none, K) := by
    unfold mmap
    split_ifs <;> rfl
  unfold mmapFile
  rw [if_neg (by simp), h6, e]
  dsimp only
  rw [if_pos (.inl h7), h8, mmap_room hn h1 h2 h3 h4 h5]

/-- C69: as long as the exporter's file can be reached, a handle can be opened, whatever was opened and closed before: only the
kernel running out of descriptors or addresses can make it fail. -/
theorem C69_again_partial {K : Kernel} {G : List Given} {O : List Opened} (h : Hist K G O) (g : Given) (hg : g ∈ G) (c : Prov)
    (a : Ans) (x : Nat) (hr : Ready c g.by_) (hb : Backs K g.by_ g.file) (hp : Plain K c g.off a)
    (hroom : Room K c a x) (hoff : g.off % K.P = 0) : (openHandle K c g.h a).1 = .success := by
  have hG := (hist_inv h).given g hg
  obtain ⟨hP, h0, hdax⟩ := hp
  obtain ⟨⟨n, hn, hfd⟩, r2, r3, r4, r5, r6⟩ := hroom
  have hn0 : n ≠ 0 := by rintro rfl; exact h0 hn
  have hF : a.fdFor K c.pid = some n := by
    unfold Ans.fdFor
    rw [hn]
    dsimp only
    rw [if_pos hfd]
  have hM : 0 < MB2 := by unfold MB2; decide
  rcases g with ⟨h, s, size, file, off, bytes⟩
  have hf := hG.form
  have hpos := hG.pos
  dsimp only at hf hr hb hdax hoff hpos ⊢
  cases s with
  | os pid ipc fd name p o =>
    cases c with
    | os q ipc' fd' name' p' o' =>
      cases (show ipc' = true from hr)
      have hF' : a.fdFor K q = some n := hF
      have hmap : ∀ K1 : Kernel, K1.mem = K.mem → K1.P = K.P → ∀ prot, (osMap K1 q n file size off prot a).1 = .success := by
        intro K1 e1 e2 prot
        unfold osMap
        rw [r6, mmap_room hn0 hpos.ne' (by rw [← e2] at hoff; exact hoff) r2 (by rw [← e2] at r3; exact r3)
          (by intro y hy; have := r4 y hy; rw [← e1] at this; exact this)]
      dsimp only at hf
      rw [hf]
      simp only [openHandle, osOpen]
      rw [if_neg (by simp)]
      simp only [Backs] at hb
      by_cases hl : name.length > 0
      · have hne : name ≠ "" := by rintro rfl; simp at hl
        rw [if_neg hne] at hb
        rw [if_pos hl, hb, hF']
        dsimp only
        rw [if_neg (by omega)]
        exact hmap { K with shm := fun s => if s = name then none else K.shm s } rfl rfl _
      · have hne : name = "" := by
          have : name.length = 0 := by omega
          simpa using this
        rw [if_pos hne] at hb
        rw [if_neg hl, if_neg hl, hb, hF']
        exact hmap _ rfl rfl _
    | file => exact absurd hr (by simp [Ready])
    | devdax => exact absurd hr (by simp [Ready])
  | file pid ipc fsdax path p o =>
    cases c with
    | file q ipc' fsdax' path' p' o' =>
      cases (show ipc' = true from hr)
      dsimp only at hf
      rw [hf]
      have hF' : a.fdFor K q = some n := hF
      have hb' : K.path path = some file := hb
      change (fileOpen K q true fsdax' path off size p a).1 = _
      obtain ⟨L, hL, hL0⟩ : ∃ L, (if fsdax' = true then alignPtrDownSizeUp off size MB2 else (off, size)) = (off, L) ∧ L ≠ 0 := by
        by_cases hfs : fsdax' = true
        · exact ⟨_, by rw [if_pos hfs, align_aligned _ _ (hdax hfs).1], (alignUp_pos _ _ hM hpos).ne'⟩
        · exact ⟨size, by rw [if_neg hfs], hpos.ne'⟩
      unfold fileOpen
      rw [if_neg (by simp), hb', hF', hL]
      dsimp only
      rcases r5 with r5 | ⟨r5, r7, -⟩
      · rw [mmapFile_room (K := setFd K q n (some file)) (q := q) hn0 hL0 hoff r2 r3 r4 r5]
      · rw [mmapFile_room2 (K := setFd K q n (some file)) (q := q) hn0 hL0 hoff r2 r3 r4 r5 r7 r6]
    | os => exact absurd hr (by simp [Ready])
    | devdax => exact absurd hr (by simp [Ready])
  | devdax pid path p b =>
    cases c with
    | devdax q path' p' b' =>
      dsimp only at hf
      rw [hf]
      have hF' : a.fdFor K q = some n := hF
      have hb' : K.path path = some file := hb
      change (devdaxOpen K q path p off size a).1 = _
      obtain ⟨L, hL, hL0⟩ : ∃ L, alignPtrDownSizeUp off size MB2 = (off, L) ∧ L ≠ 0 :=
        ⟨_, align_aligned _ _ hdax.1, (alignUp_pos _ _ hM hpos).ne'⟩
      unfold devdaxOpen
      rw [hb', hF', hL]
      dsimp only
      have r5 : a.sync = some x := by
        rcases r5 with r5 | ⟨-, -, r5⟩
        · exact r5
        · exact absurd trivial r5
      rw [mmapFile_room (K := setFd K q n (some file)) (q := q) hn0 hL0 hoff r2 r3 r4 r5]
      simp
    | os => exact absurd hr (by simp [Ready])
    | file => exact absurd hr (by simp [Ready])

/-- C69: opening does not make the exporter's file unreachable, unless the exporter is an OS provider with a shared memory name
(`C69_named_violated`). -/
theorem C69_reach_partial {K K' : Kernel} {G : List Given} {O : List Opened} (h : Hist K G O) (g : Given) (hg : g ∈ G) (c : Prov)
    (a : Ans) (hr : Ready c g.by_) (hb : Backs K g.by_ g.file) (hd : a.dupErr ≠ .success) (hp : Plain K c g.off a) (r : Res)
    (p : Option Nat) (e : openHandle K c g.h a = (r, p, K')) (s : Prov) (f : Nat)
    (hname : ∀ pid ipc fd name pr o, s = .os pid ipc fd name pr o → name = "") (hs : Backs K s f) : Backs K' s f := by
  have hfd := (C69_open_partial h g hg c a hr hb hd hp r p e).1
  have hpath : K'.path = K.path := by
    have hG := (hist_inv h).given g hg
    have hsp := open_spec hG hr hb hd hp
    rw [e] at hsp
    by_cases hk : r = .success
    · obtain ⟨x, K1, len, hx, hS, hm, -⟩ := hsp.ok hk
      have := hm.eq
      dsimp only at this
      rw [this]
      exact hS.2.2.2
    · exact (hsp.fail hk).2.2.2.2
  cases s with
  | os pid ipc fd name pr o =>
    have hn := hname _ _ _ _ _ _ rfl
    simp only [Backs, if_pos hn] at hs ⊢
    rw [hfd]; exact hs
  | file => simp only [Backs] at hs ⊢; rw [hpath]; exact hs
  | devdax => simp only [Backs] at hs ⊢; rw [hpath]; exact hs

/-- The provider has a shared memory name. -/
def Named : Prov → Prop
  | .os _ _ _ name _ _ => name ≠ ""
  | _ => False

/-- C69: a provider takes back the handles it made; a handle another provider takes back names the same file: the same process and
name or descriptor, or the same path. Left out: an OS provider without name that gets a handle of one with a name; it compares the
descriptor in the handle, which `os_get_ipc_handle` does not write in that case (the model writes 0). -/
theorem C69_put_partial (s s' : Prov) (ptr size : Nat) (h : Handle) (hnn : Named s → Named s')
    (e : getHandle s ptr size = (.success, some h)) :
    putHandle s h = .success ∧ (putHandle s' h = .success → ∀ K f, Backs K s' f ↔ Backs K s f) := by
  cases s with
  | os pid ipc fd name p o =>
    simp only [getHandle] at e
    split_ifs at e with h1 h2 h3 <;> cases e
    · refine ⟨by simp [putHandle, h1, h3], ?_⟩
      cases s' with
      | os pid' ipc' fd' name' p' o' =>
        intro hp K f
        simp only [putHandle] at hp
        split_ifs at hp with a1 a2 a3 a4 a5
        · push Not at a4
          subst a4
          have : name ≠ "" := by rintro rfl; simp at h3
          simp [Backs, this]
        · have : name ≠ "" := by rintro rfl; simp at h3
          have h6 : name' ≠ "" := hnn this
          exact absurd (show name' = "" by
            have : name'.length = 0 := by omega
            simpa using this) h6
      | file => intro hp; simp [putHandle] at hp
      | devdax => intro hp; simp [putHandle] at hp
    · have hn : name = "" := by
        have : name.length = 0 := by omega
        simpa using this
      refine ⟨by simp [putHandle, h1, h3], ?_⟩
      cases s' with
      | os pid' ipc' fd' name' p' o' =>
        intro hp K f
        simp only [putHandle] at hp
        split_ifs at hp with a1 a2 a3 a4 a5
        · push Not at a4
          subst a4
          exact absurd a3 h3
        · push Not at a2 a5
          have hn' : name' = "" := by
            have : name'.length = 0 := by omega
            simpa using this
          simp [Backs, hn, hn', a2, a5]
      | file => intro hp; simp [putHandle] at hp
      | devdax => intro hp; simp [putHandle] at hp
  | file pid ipc fsdax path p o =>
    simp only [getHandle] at e
    split_ifs at e with h1 h2 <;> cases e
    refine ⟨by simp [putHandle, h1], ?_⟩
    cases s' with
    | file pid' ipc' fsdax' path' p' o' =>
      intro hp K f
      simp only [putHandle] at hp
      split_ifs at hp with a1 a2
      push Not at a2
      simp [Backs, a2]
    | os => intro hp; simp [putHandle] at hp
    | devdax => intro hp; simp [putHandle] at hp
  | devdax pid path p b =>
    simp only [getHandle] at e
    cases e
    refine ⟨by simp [putHandle], ?_⟩
    cases s' with
    | devdax pid' path' p' b' =>
      intro hp K f
      simp only [putHandle] at hp
      split_ifs at hp with a1
      push Not at a1
      simp [Backs, a1]
    | os => intro hp; simp [putHandle] at hp
    | file => intro hp; simp [putHandle] at hp

end Verif.CpuIpc
