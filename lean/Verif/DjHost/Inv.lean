import Verif.DjHost.Dl
import Verif.DjHost.Spec
/-!
# Lemmas for the disjoint pool's own memory: the invariant
-/
namespace Verif.DjHost

/-- A bucket without what changes while the pool is used. -/
def Bucket.frame (c : Bucket) : Bucket := { c with avail := 0, availNum := 0, unavail := 0, inPool := 0 }

def St.data (s : St) : Addr → Option Slab := fun a => (s.slabs a).map Slab.data
def St.frame (s : St) : Addr → Option Bucket := fun a => (s.bucks a).map Bucket.frame
def St.hasLim (s : St) : Addr → Bool := fun a => (s.lims a).isSome
def St.hasCrit (s : St) : Addr → Bool := fun a => (s.crits a).isSome

/-- The lists of a bucket: `la` available, `lu` unavailable; `e` unused slabs are not counted. -/
structure BInv (m : Addr → Option Slab) (b : Addr) (c : Bucket) (la lu : List Addr) (e : Nat) : Prop where
  av : Dl m c.avail la
  un : Dl m c.unavail lu
  num : c.availNum = la.length
  avs : ∀ x ∈ la, ∃ d, m x = some d ∧ d.bucket = b ∧ d.alloc < d.total
  uns : ∀ x ∈ lu, ∃ d, m x = some d ∧ d.bucket = b ∧ d.alloc = d.total ∧ 0 < d.total
  all : ∀ x d, m x = some d → d.bucket = b → x ∈ la ∨ x ∈ lu
  pooled : c.inPool + e = la.countP fun x => (m x).any fun d => d.alloc = 0

def Lists (m : Addr → Option Slab) (bs : Addr → Option Bucket) (e : Addr → Nat) : Prop :=
  ∀ b c, bs b = some c → ∃ la lu, BInv m b c la lu (e b)

/-- The pool `p`. -/
structure PoolOk (arrs : Addr → Option (List (Option Addr))) (K : Addr → Option Bucket) (lm : Addr → Bool) (A : World)
    (p : Addr) (P : Pool) (I : Info) (L : List Addr) : Prop where
  nz : p ≠ 0
  arr : arrs P.buckets = some (L.map some)
  len : L.length = P.num
  classes : P.num = I.classes
  nodup : L.Nodup
  buck : ∀ b ∈ L, ∃ c, K b = some c ∧ c.pool = p ∧ c.limits = (if P.shared ≠ 0 then P.shared else P.default) ∧ 0 < c.size
  onto : ∀ b c, K b = some c → c.pool = p → b ∈ L
  dflt : lm P.default = true
  mine : A.lims P.default = false
  shared : P.shared = I.shared
  limit : P.shared = 0 ∨ A.lims P.shared = true

structure Shape (pools : Addr → Option Pool) (arrs : Addr → Option (List (Option Addr))) (K : Addr → Option Bucket)
    (lm cr : Addr → Bool) (A : World) : Prop where
  known : ∀ p, A.pools p = none → pools p = none
  pool : ∀ p I, A.pools p = some I → ∃ P L, pools p = some P ∧ PoolOk arrs K lm A p P I L
  buck : ∀ b c, K b = some c → ∃ I, A.pools c.pool = some I
  lim0 : A.lims 0 = false
  lims : ∀ l, A.lims l = true → lm l = true
  limOwner : ∀ l, lm l = true → A.lims l = true ∨ ∃ p P, pools p = some P ∧ P.default = l
  critOwner : ∀ t, cr t = true → ∃ p P, pools p = some P ∧ P.known = t
  knownInj : ∀ p p' P P', pools p = some P → pools p' = some P' → P.known = P'.known → p = p'
  defInj : ∀ p p' P P', pools p = some P → pools p' = some P' → P.default = P'.default → p = p'

/-- The slabs, without their links. -/
structure Data (D : Addr → Option Slab) (K : Addr → Option Bucket) (pools : Addr → Option Pool)
    (crits : Addr → Option (List (Addr × Addr))) (prov : Addr → Option Nat) (A : World) : Prop where
  nz : D 0 = none
  buck : ∀ x d, D x = some d → ∃ c, K d.bucket = some c ∧ d.total * c.size ≤ d.size
  mem : ∀ x d, D x = some d → prov d.mem = some d.size ∧ d.mem ≠ 0
  total : ∀ x d, D x = some d → 0 < d.total ∧ d.alloc ≤ d.total
  memInj : ∀ x y d d', D x = some d → D y = some d' → d.mem = d'.mem → x = y
  prov : ∀ m n, prov m = some n → ∃ x d, D x = some d ∧ d.mem = m
  live : ∀ x d c I, D x = some d → K d.bucket = some c → A.pools c.pool = some I → I.live.count x = d.alloc
  liveMem : ∀ p I x, A.pools p = some I → x ∈ I.live → ∃ d c, D x = some d ∧ K d.bucket = some c ∧ c.pool = p
  crit : ∀ p P, pools p = some P → ∃ l, crits P.known = some l ∧
    ∀ k y, (k, y) ∈ l ↔ ∃ d c, D y = some d ∧ d.mem = k ∧ K d.bucket = some c ∧ c.pool = p

structure Inv (s : St) (A : World) (e : Addr → Nat) : Prop where
  shape : Shape s.pools s.arrs s.frame s.hasLim s.hasCrit A
  data : Data s.data s.frame s.pools s.crits s.prov A
  lists : Lists s.slabs s.bucks e

abbrev Inv0 (s : St) (A : World) : Prop := Inv s A fun _ => 0

theorem inv_init : Inv0 init World.empty where
  shape := by
    refine ⟨fun _ _ => rfl, ?_, ?_, rfl, ?_, ?_, ?_, ?_, ?_⟩
    · intro p I h; cases h
    · intro b c h; cases h
    · intro l h; cases h
    · intro l h; cases h
    · intro l h; cases h
    · intro p p' P P' h; cases h
    · intro p p' P P' h; cases h
  data := by
    refine ⟨rfl, ?_, ?_, ?_, ?_, ?_, ?_, ?_, ?_⟩
    · intro x d h; cases h
    · intro x d h; cases h
    · intro x d h; cases h
    · intro x y d d' h; cases h
    · intro m n h; cases h
    · intro x d c I h; cases h
    · intro p I x h; cases h
    · intro p P h; cases h
  lists := by intro b c h; cases h

/-! ## Functions of the blocks -/

theorem data_some {s : St} {x : Addr} {d : Slab} (h : s.slabs x = some d) : s.data x = some d.data := by simp [St.data, h]
theorem data_back {s : St} {x : Addr} {d : Slab} (h : s.data x = some d) : ∃ d', s.slabs x = some d' ∧ d'.data = d := by
  unfold St.data at h
  cases e : s.slabs x with
  | none => rw [e] at h; cases h
  | some d' =>
    rw [e] at h
    exact ⟨d', rfl, by simpa using h⟩
theorem frame_some {s : St} {x : Addr} {d : Bucket} (h : s.bucks x = some d) : s.frame x = some d.frame := by simp [St.frame, h]
theorem frame_back {s : St} {x : Addr} {d : Bucket} (h : s.frame x = some d) : ∃ d', s.bucks x = some d' ∧ d'.frame = d := by
  unfold St.frame at h
  cases e : s.bucks x with
  | none => rw [e] at h; cases h
  | some d' =>
    rw [e] at h
    exact ⟨d', rfl, by simpa using h⟩

theorem map_upd {α β : Type} (f : α → β) (m : Addr → Option α) (x : Addr) (v : Option α) :
    (fun a => (upd m x v a).map f) = upd (fun a => (m a).map f) x (v.map f) := by
  funext a
  unfold upd
  split <;> rfl

theorem upd_self {α : Type} (f : Addr → α) (a : Addr) : upd f a (f a) = f := by
  funext b
  unfold upd
  split
  · subst b; rfl
  · rfl

/-- Writing a bucket without changing its frame. -/
theorem frame_upd {bs : Addr → Option Bucket} {b : Addr} {c c' : Bucket} (h : bs b = some c) (hf : c'.frame = c.frame) :
    (fun a => (upd bs b (some c') a).map Bucket.frame) = fun a => (bs a).map Bucket.frame := by
  rw [map_upd]
  have : (some c').map Bucket.frame = (fun a => (bs a).map Bucket.frame) b := by simp [h, hf]
  rw [this, upd_self]

theorem isSome_upd {α : Type} {m : Addr → Option α} {l : Addr} {c c' : α} (h : m l = some c) :
    (fun a => (upd m l (some c') a).isSome) = fun a => (m a).isSome := by
  funext a
  unfold upd
  split
  · subst a; simp [h]
  · rfl

/-- Other buckets do not notice what happens to the slabs of one bucket. -/
theorem binv_other {m m' : Addr → Option Slab} {b : Addr} {c : Bucket} {la lu : List Addr} {e : Nat}
    (h : BInv m b c la lu e) (h1 : ∀ x d, m x = some d → d.bucket = b → m' x = some d)
    (h2 : ∀ x d, m' x = some d → d.bucket = b → m x = some d) : BInv m' b c la lu e := by
  have ea : ∀ x ∈ la, m' x = m x := fun x hx => by
    obtain ⟨d, d1, d2, _⟩ := h.avs x hx
    rw [d1, h1 x d d1 d2]
  have eu : ∀ x ∈ lu, m' x = m x := fun x hx => by
    obtain ⟨d, d1, d2, _⟩ := h.uns x hx
    rw [d1, h1 x d d1 d2]
  refine ⟨h.av.congr ea, h.un.congr eu, h.num, ?_, ?_, ?_, ?_⟩
  · intro x hx
    rw [ea x hx]
    exact h.avs x hx
  · intro x hx
    rw [eu x hx]
    exact h.uns x hx
  · intro x d hd hb
    exact h.all x d (h2 x d hd hb) hb
  · rw [h.pooled]
    exact List.countP_congr fun x hx => by rw [ea x hx]

/-- A change of one bucket and its slabs. -/
theorem lists_local {m m' : Addr → Option Slab} {bs : Addr → Option Bucket} {e e' : Addr → Nat} {b : Addr} {c' : Bucket}
    {la lu : List Addr} (h : Lists m bs e) (he : ∀ b', b' ≠ b → e' b' = e b') (hb : BInv m' b c' la lu (e' b))
    (h1 : ∀ x d, m x = some d → d.bucket ≠ b → m' x = some d) (h2 : ∀ x d, m' x = some d → d.bucket ≠ b → m x = some d) :
    Lists m' (upd bs b (some c')) e' := by
  intro b' c hc
  by_cases hbb : b' = b
  · subst hbb
    rw [upd_same] at hc
    cases hc
    exact ⟨la, lu, hb⟩
  · rw [upd_ne _ _ hbb] at hc
    obtain ⟨la, lu, hl⟩ := h b' c hc
    rw [← he b' hbb] at hl
    exact ⟨la, lu, binv_other hl (fun x d hd hx => h1 x d hd (by rw [hx]; exact hbb))
      (fun x d hd hx => h2 x d hd (by rw [hx]; exact hbb))⟩

end Verif.DjHost
