import Verif.CpuIpc.Props
/-!
# C69: histories that meet the hypotheses, and the cases left out
-/
namespace Verif.CpuIpc

/-- 8 MB of file 7 at 2 MB. -/
def eightMB : Mem := fun x => if 2097152 ≤ x ∧ x < 10485760 then some ⟨some 7, x - 2097152, 3, true⟩ else none

/-- Process 1 has 8 MB of file 7 at 2 MB; other processes have nothing. Descriptor 5 of process 1 is file 7, the shared memory name
`umf` is file 7, and so is the path `/dev/dax0.0`. -/
def kern : Kernel where
  P := 4096
  mem := fun q => if q = 1 then eightMB else fun _ => none
  fd := fun q n => if q = 1 ∧ n = 5 then some 7 else none
  shm := fun s => if s = "umf" then some 7 else none
  path := fun s => if s = "/dev/dax0.0" then some 7 else none

/-- The kernel gives descriptor `n` and address `x`. -/
def give (n x : Nat) : Ans := ⟨some n, .other, some x, true, some x, true⟩

def osProv : Prov := .os 1 true 5 "" 3 fun p => if p = 2097152 then 1 else 0
def namedProv : Prov := .os 1 true 5 "umf" 3 fun p => if p = 2097152 then 1 else 0
def devProv : Prov := .devdax 1 "/dev/dax0.0" 3 2097152
def fileProv : Prov := .file 1 true false "/dev/dax0.0" 3 fun p => if p = 2097152 then 1 else 0

theorem eightMB_at (i : Nat) (h : i < 8388608) : eightMB (2097152 + i) = some ⟨some 7, i, 3, true⟩ := by
  unfold eightMB
  rw [if_pos ⟨by omega, by omega⟩, show 2097152 + i - 2097152 = i by omega]

theorem kern_mem (i : Nat) (h : i < 8388608) : kern.mem 1 (2097152 + i) = some ⟨some 7, i, 3, true⟩ := by
  rw [show kern.mem 1 = eightMB by simp [kern]]
  exact eightMB_at i h

theorem kern_free (q : Nat) (h : q ≠ 1) (x : Nat) : kern.mem q x = none := by
  rw [show kern.mem q = fun _ => none by simp [kern, h]]

theorem os_alloc : Alloc kern osProv 2097152 8192 7 0 :=
  ⟨by omega, by simp [Backs, kern, osProv], fun i hi => by rw [Nat.zero_add]; exact kern_mem i (by omega), by simp [osProv]⟩

theorem named_alloc : Alloc kern namedProv 2097152 8192 7 0 :=
  ⟨by omega, by simp [Backs, kern, namedProv], fun i hi => by rw [Nat.zero_add]; exact kern_mem i (by omega), by simp [namedProv]⟩

theorem file_alloc : Alloc kern fileProv 2097152 8192 7 0 :=
  ⟨by omega, by simp [Backs, kern, fileProv], fun i hi => by rw [Nat.zero_add]; exact kern_mem i (by omega), by simp [fileProv]⟩

theorem dev_alloc (off size : Nat) (h0 : 0 < size) (h : off + size ≤ 8388608) :
    Alloc kern devProv (2097152 + off) size 7 off := by
  refine ⟨h0, by simp [Backs, kern, devProv], fun i hi => ?_, by simp [devProv]⟩
  rw [Nat.add_assoc]
  exact kern_mem _ (by omega)

/-- An OS provider of process 2. -/
def osCons (q : Nat) : Prov := .os q true 9 "" 3 fun _ => 0

theorem kern_page : 0 < kern.P ∧ MB2 % kern.P = 0 := by
  unfold MB2; exact ⟨by decide, by decide⟩

theorem kern_room (c : Prov) (hc : c.pid ≠ 1) (n x : Nat) (h : 0 < x ∧ x % 4096 = 0) : Room kern c (give n x) x :=
  ⟨⟨n, rfl, by simp only [kern]; rw [if_neg (fun e => hc e.1)]⟩, h.1, h.2, fun y _ => kern_free _ hc y, .inl rfl, rfl⟩

theorem success_shape {K : Kernel} {G : List Given} {O : List Opened} (h : Hist K G O) (g : Given) (hg : g ∈ G) (c : Prov) (a : Ans)
    (hr : Ready c g.by_) (hb : Backs K g.by_ g.file) (hd : a.dupErr ≠ .success) (hp : Plain K c g.off a)
    (hs : (openHandle K c g.h a).1 = .success) : ∃ x K', openHandle K c g.h a = (.success, some x, K') := by
  rcases e : openHandle K c g.h a with ⟨r, p, K'⟩
  rw [e] at hs
  cases (show r = .success from hs)
  obtain ⟨x, rfl, -⟩ := (C69_open_partial h g hg c a hr hb hd hp _ _ e).2.2.2.2 rfl
  exact ⟨x, K', rfl⟩

/-- A history: process 1 makes a handle, process 2 opens it. The hypotheses of all theorems of `Props.lean` hold in it. -/
theorem ex_hist : ∃ K G O, Hist K G O ∧ ∃ o ∈ O, o.c.pid = 2 ∧ o.g.size = 8192 ∧
    o.g.bytes 5 = some ⟨some 7, 5, 3, true⟩ := by
  have h0 := Hist.get osProv 2097152 8192 7 0 (.os 1 5 0 8192 3 "") (Hist.start kern) os_alloc (by simp [getHandle, osProv])
  have hp : Plain kern (osCons 2) 0 (give 3 4096) := ⟨kern_page, by simp [give], trivial⟩
  have hs := C69_again_partial h0 _ List.mem_cons_self (osCons 2) (give 3 4096) 4096 rfl os_alloc.backs hp
    (kern_room _ (by simp [osCons, Prov.pid]) _ _ (by omega)) (by simp)
  obtain ⟨x, K', e⟩ := success_shape h0 _ List.mem_cons_self (osCons 2) (give 3 4096) rfl os_alloc.backs (by simp [give]) hp hs
  refine ⟨_, _, _, Hist.openOk (osCons 2) _ (give 3 4096) x h0 List.mem_cons_self rfl os_alloc.backs (by simp [give]) hp e, _, List.mem_cons_self, rfl,
    rfl, ?_⟩
  exact kern_mem 5 (by omega)

/-- The same for a devdax provider. -/
theorem ex_devdax : ∃ K G O, Hist K G O ∧ ∃ o ∈ O, o.c.pid = 2 ∧ o.g.bytes 5 = some ⟨some 7, 2097152 + 5, 3, true⟩ := by
  have ha := dev_alloc 2097152 4096 (by omega) (by omega)
  have h0 := Hist.get devProv _ _ _ _ (.devdax "/dev/dax0.0" 3 2097152 4096) (Hist.start kern) ha (by simp [getHandle, devProv])
  have hp : Plain kern (.devdax 2 "x" 0 0) 2097152 (give 3 4194304) :=
    ⟨kern_page, by simp [give], by unfold MB2; exact ⟨by decide, rfl⟩⟩
  have hs := C69_again_partial h0 _ List.mem_cons_self (.devdax 2 "x" 0 0) (give 3 4194304) 4194304 trivial ha.backs hp
    (kern_room _ (by simp [Prov.pid]) _ _ (by omega)) (by simp [kern])
  obtain ⟨x, K', e⟩ := success_shape h0 _ List.mem_cons_self (.devdax 2 "x" 0 0) (give 3 4194304) trivial ha.backs (by simp [give]) hp hs
  refine ⟨_, _, _, Hist.openOk (.devdax 2 "x" 0 0) _ (give 3 4194304) x h0 List.mem_cons_self trivial ha.backs (by simp [give]) hp e, _, List.mem_cons_self, rfl, ?_⟩
  dsimp only
  rw [Nat.add_assoc]
  exact kern_mem (2097152 + 5) (by omega)

theorem osMap_shm (K : Kernel) (q n f size off prot : Nat) (a : Ans) : (osMap K q n f size off prot a).2.2.shm = K.shm := by
  have hm : (mmap (setFd K q n (some f)) q size n f off prot true false a.plain).2.shm = K.shm := by
    unfold mmap
    generalize a.plain = w
    by_cases h1 : size = 0 ∨ off % (setFd K q n (some f)).P ≠ 0
    · rw [if_pos h1]; rfl
    · rw [if_neg h1, if_neg (by simp)]
      cases w with
      | none => rfl
      | some x => dsimp only; split <;> rfl
  unfold osMap
  dsimp only
  split <;> exact hm

/-- C69 fails for OS providers with a shared memory name: the first process that opens a handle removes the name, and every later
attempt to open a handle of that provider, for this or another allocation, in this or another process, fails. -/
theorem C69_named_violated (K K' : Kernel) (q pid fd off size prot : Nat) (name : String) (hname : name ≠ "") (a : Ans) (x : Nat)
    (e : osOpen K q true pid fd off size prot name a = (.success, some x, K')) (q' off' size' : Nat) (a' : Ans) :
    osOpen K' q' true pid fd off' size' prot name a' = (.unknown, none, K') := by
  have hl : name.length > 0 := by
    rcases Nat.eq_zero_or_pos name.length with h | h
    · exact absurd (by simpa using h) hname
    · exact h
  have hshm : K'.shm name = none := by
    unfold osOpen at e
    rw [if_neg (by simp), if_pos hl] at e
    split at e
    · cases e
    · next f hf =>
      split at e
      · cases e
      · next n hn =>
        by_cases h0 : n ≤ 0
        · rw [if_pos h0] at e; cases e
        · rw [if_neg h0] at e
          have := osMap_shm { K with shm := fun s => if s = name then none else K.shm s } q n f size off prot a
          rw [e] at this
          dsimp only at this
          rw [this]; simp
  unfold osOpen
  rw [if_neg (by simp), if_pos hl, hshm]

/-- ... and the first attempt does work: the case above happens. -/
theorem named_first : ∃ x K', osOpen kern 2 true 1 0 0 8192 3 "umf" (give 3 4096) = (.success, some x, K') := by
  have h0 := Hist.get namedProv 2097152 8192 7 0 (.os 1 0 0 8192 3 "umf") (Hist.start kern) named_alloc
    (by simp [getHandle, namedProv])
  have hp : Plain kern (osCons 2) 0 (give 3 4096) := ⟨kern_page, by simp [give], trivial⟩
  have hs := C69_again_partial h0 _ List.mem_cons_self (osCons 2) (give 3 4096) 4096 rfl named_alloc.backs hp
    (kern_room _ (by simp [osCons, Prov.pid]) _ _ (by omega)) (by simp)
  exact success_shape h0 _ List.mem_cons_self (osCons 2) (give 3 4096) rfl named_alloc.backs (by simp [give]) hp hs

theorem mapAt_first (K : Kernel) (q x len : Nat) (file : Option Nat) (off prot : Nat) (sh : Bool) (hP : 0 < K.P) (hl : 0 < len) :
    (mapAt K q x len file off prot sh).mem q x = some ⟨file, off, prot, sh⟩ := by
  have := le_alignUp len K.P hP
  unfold mapAt
  dsimp only
  rw [setAt_self, if_pos ⟨by omega, by omega⟩, Nat.sub_self, Nat.add_zero]

/-- `shm_unlink`. -/
def dropName (K : Kernel) (name : String) : Kernel := { K with shm := fun s => if s = name then none else K.shm s }

theorem named_open (K : Kernel) (q pid fd off size prot f x : Nat) (name : String) (hl : name.length > 0) (hf : K.shm name = some f)
    (hfd : K.fd q 3 = none) (hs : size ≠ 0) (h3 : 0 < x) (h4 : x % K.P = 0) (ho : off % K.P = 0)
    (h5 : ∀ y, x ≤ y → K.mem q y = none) :
    osOpen K q true pid fd off size prot name (give 3 x) = (.success, some x,
      setFd (mapAt (setFd { K with shm := fun s => if s = name then none else K.shm s } q 3 (some f)) q x size (some f) off prot true)
        q 3 none) := by
  unfold osOpen
  rw [if_neg (by simp), if_pos hl, hf, show (give 3 x).fdFor K q = some 3 by simp [Ans.fdFor, give, hfd]]
  dsimp only
  rw [if_neg (by omega)]
  unfold osMap
  rw [show (give 3 x).plain = some x from rfl, mmap_room (K := setFd { K with shm := fun s => if s = name then none else K.shm s } q 3
    (some f)) (q := q) (by omega) hs ho h3 h4 h5]

/-- C69 fails for OS providers with a shared memory name: when another provider is created with the same name (`shmCreate`), a handle
of the first provider opens the file of the second one, without an error. -/
theorem C69_sameName_violated : ∃ (K : Kernel) (s c : Prov) (ptr size file off : Nat) (h : Handle) (a : Ans) (x : Nat) (K' : Kernel),
    Alloc K s ptr size file off ∧ getHandle s ptr size = (.success, some h) ∧
    openHandle (shmCreate K 4 6 "umf" 8) c h a = (.success, some x, K') ∧ K.mem s.pid ptr = some ⟨some 7, 0, 3, true⟩ ∧
    K'.mem c.pid x = some ⟨some 8, 0, 3, true⟩ :=
  ⟨kern, namedProv, osCons 2, 2097152, 8192, 7, 0, .os 1 0 0 8192 3 "umf", give 3 4096, 4096, _, named_alloc,
    by simp [getHandle, namedProv],
    named_open (shmCreate kern 4 6 "umf" 8) 2 1 0 0 8192 3 8 4096 "umf" (by decide) (by simp [shmCreate, setFd])
      (by simp [shmCreate, setFd, setAt, kern]) (by omega) (by omega) (by simp [shmCreate, setFd, kern]) (by simp)
      (fun y _ => kern_free 2 (by omega) y), kern_mem 0 (by omega),
    mapAt_first (setFd (dropName (shmCreate kern 4 6 "umf" 8) "umf") 2 3 (some 8)) 2 4096 8192 (some 8) 0 3 true
      (by simp [setFd, shmCreate, kern, dropName]) (by omega)⟩

theorem fd0_open (K : Kernel) (q pid fd off size prot f x : Nat) (hf : K.fd pid fd = some f)
    (hfd : K.fd q 0 = none) (hs : size ≠ 0) (h3 : 0 < x) (h4 : x % K.P = 0) (ho : off % K.P = 0)
    (h5 : ∀ y, x ≤ y → K.mem q y = none) :
    osOpen K q true pid fd off size prot "" (give 0 x) = (.success, some x,
      setFd (mapAt (setFd K q 0 (some f)) q x size none off prot true) q 0 none) := by
  unfold osOpen
  rw [if_neg (by simp), if_neg (by simp), hf, show (give 0 x).fdFor K q = some 0 by simp [Ans.fdFor, give, hfd]]
  dsimp only
  unfold osMap mmap
  rw [if_neg (by push Not; exact ⟨hs, ho⟩), if_neg (by simp), show (give 0 x).plain = some x from rfl]
  dsimp only
  rw [if_pos ⟨h3, h4, fun i _ => h5 _ (by omega)⟩]
  rfl

/-- C69 fails when descriptor 0 is free in the opening process (its standard input is closed): the descriptor the handle is opened
with is 0, `utils_mmap` takes it for none and gives anonymous memory, without an error. -/
theorem C69_fd0_violated : ∃ (K : Kernel) (s c : Prov) (ptr size file off : Nat) (h : Handle) (a : Ans) (x : Nat) (K' : Kernel),
    Alloc K s ptr size file off ∧ getHandle s ptr size = (.success, some h) ∧ Ready c s ∧
    openHandle K c h a = (.success, some x, K') ∧ K'.mem c.pid x = some ⟨none, 0, 3, true⟩ :=
  ⟨kern, osProv, osCons 2, 2097152, 8192, 7, 0, .os 1 5 0 8192 3 "", give 0 4096, 4096, _, os_alloc,
    by simp [getHandle, osProv], rfl,
    fd0_open kern 2 1 5 0 8192 3 7 4096 (by simp [kern]) (by simp [kern]) (by omega) (by omega) (by simp [kern]) (by simp)
      (fun y _ => kern_free 2 (by omega) y),
    mapAt_first (setFd kern 2 0 (some 7)) 2 4096 8192 none 0 3 true (by simp [setFd, kern]) (by omega)⟩

/-- With a shared memory name the attempt fails, and descriptor 0 stays open. -/
theorem C69_fd0Leak_violated : (osOpen kern 2 true 1 0 0 8192 3 "umf" (give 0 4096)).1 = .unknown ∧
    kern.fd 2 0 = none ∧ (osOpen kern 2 true 1 0 0 8192 3 "umf" (give 0 4096)).2.2.fd 2 0 = some 7 := by
  have hl : 0 < "umf".length := by decide
  simp [osOpen, kern, Ans.fdFor, give, setFd, setAt, hl]

/-- What `devdaxOpen` gives. -/
theorem dev_open (K : Kernel) (q : Nat) (path : String) (prot off size f x o L : Nat)
    (h1 : alignPtrDownSizeUp off size MB2 = (o, L)) (hp : K.path path = some f) (hfd : K.fd q 3 = none) (h2 : L ≠ 0)
    (h3 : o % K.P = 0) (h4 : 0 < x) (h5 : x % K.P = 0) (h6 : ∀ y, x ≤ y → K.mem q y = none) :
    devdaxOpen K q path prot off size (give 3 x) =
      (.success, some x, setFd (mapAt (setFd K q 3 (some f)) q x L (some f) o prot true) q 3 none) := by
  unfold devdaxOpen
  rw [h1, hp, show (give 3 x).fdFor K q = some 3 by simp [Ans.fdFor, give, hfd]]
  dsimp only
  rw [mmapFile_room (K := setFd K q 3 (some f)) (q := q) (by omega) h2 h3 h4 h5 h6 rfl]
  simp

/-- C69 fails for devdax providers when an allocation was split at an offset that is no multiple of 2 MB: the opened handle shows
other bytes. -/
theorem C69_split_violated : ∃ (K : Kernel) (s c : Prov) (ptr size file off : Nat) (h : Handle) (a : Ans) (x : Nat) (K' : Kernel),
    Alloc K s ptr size file off ∧ getHandle s ptr size = (.success, some h) ∧ Ready c s ∧
    openHandle K c h a = (.success, some x, K') ∧ K.mem s.pid ptr = some ⟨some 7, 4096, 3, true⟩ ∧
    K'.mem c.pid x = some ⟨some 7, 0, 3, true⟩ :=
  ⟨kern, devProv, .devdax 2 "x" 0 0, 2097152 + 4096, 4096, 7, 4096, .devdax "/dev/dax0.0" 3 4096 4096, give 3 4194304, 4194304,
    _, dev_alloc 4096 4096 (by omega) (by omega), by simp [getHandle, devProv], trivial,
    dev_open kern 2 "/dev/dax0.0" 3 4096 4096 7 4194304 0 2097152 (by simp [alignPtrDownSizeUp, MB2, alignUp, alignDown])
      (by simp [kern]) (by simp [kern]) (by omega) (by simp) (by omega) (by simp [kern]) (fun y _ => kern_free 2 (by omega) y),
    kern_mem 4096 (by omega),
    mapAt_first (setFd kern 2 3 (some 7)) 2 4194304 2097152 (some 7) 0 3 true (by simp [setFd, kern]) (by omega)⟩

theorem mapAt_in (K : Kernel) (q x len : Nat) (file : Option Nat) (off prot : Nat) (sh : Bool) (y : Nat) (h1 : x ≤ y)
    (h2 : y < x + alignUp len K.P) : (mapAt K q x len file off prot sh).mem q y ≠ none := by
  unfold mapAt
  dsimp only
  rw [setAt_self, if_pos ⟨h1, h2⟩]
  simp

theorem unmapped_out (K : Kernel) (q x len y : Nat) (h : x + len ≤ y) : (unmapped K q x len).mem q y = K.mem q y := by
  unfold unmapped
  dsimp only
  rw [setAt_self, if_neg (by omega)]

/-- ... and closing it leaves a part mapped. -/
theorem C69_splitClose_violated : ∃ (K : Kernel) (s c : Prov) (ptr size file off : Nat) (h : Handle) (a : Ans) (x : Nat)
    (K' K'' : Kernel), Alloc K s ptr size file off ∧ getHandle s ptr size = (.success, some h) ∧ Ready c s ∧
    openHandle K c h a = (.success, some x, K') ∧ closeHandle K' c x size true = (.success, K'') ∧
    ∃ y, K.mem c.pid y = none ∧ K''.mem c.pid y ≠ none := by
  have e : regLen 4096 (.devdax 2 "x" 0 0) 2097152 = 2097152 := by simp [regLen, MB2, alignUp]
  refine ⟨kern, devProv, .devdax 2 "x" 0 0, 2097152 + 1048576, 2097152, 7, 1048576, .devdax "/dev/dax0.0" 3 1048576 2097152,
    give 3 4194304, 4194304, _, _, dev_alloc 1048576 2097152 (by omega) (by omega), by simp [getHandle, devProv], trivial,
    dev_open kern 2 "/dev/dax0.0" 3 1048576 2097152 7 4194304 0 4194304 (by simp [alignPtrDownSizeUp, MB2, alignUp, alignDown])
      (by simp [kern]) (by simp [kern]) (by omega) (by simp) (by omega) (by simp [kern]) (fun y _ => kern_free 2 (by omega) y),
    close_spec _ _ _ _ kern_page (by omega) (by simp [setFd, mapAt, kern]) trivial, 6291456, kern_free 2 (by omega) _, ?_⟩
  change (unmapped _ 2 4194304 (regLen 4096 (.devdax 2 "x" 0 0) 2097152)).mem 2 6291456 ≠ none
  rw [e, unmapped_out _ _ _ _ _ (by omega)]
  exact mapAt_in (setFd kern 2 3 (some 7)) 2 4194304 4194304 (some 7) 0 3 true 6291456 (by omega)
    (by simp [setFd, kern, alignUp])

/-- C69 fails for file providers on fsdax when the kernel places the mapping at an address that is a multiple of the page size only:
closing also unmaps memory below the mapping that belongs to something else. `K` is the memory of process 2 after the open. -/
theorem C69_place_violated (K : Kernel) (hP : K.P = 4096) :
    ∃ K', closeHandle K (.file 2 true true "f" 3 fun _ => 0) (2097152 + 4096) 4096 true = (.success, K') ∧
      K'.mem 2 2097152 = none := by
  have e : closeHandle K (.file 2 true true "f" 3 fun _ => 0) (2097152 + 4096) 4096 true = closeAt K 2 (2097152, 2097152) true := by
    simp [closeHandle, alignPtrDownSizeUp, MB2, alignDown, alignUp]
  rw [e, closeAt_ok K 2 2097152 2097152 (by omega) (by rw [hP])]
  refine ⟨_, rfl, ?_⟩
  simp [unmapped, setAt, hP, alignUp]

end Verif.CpuIpc
