import Verif.Ipc.Lemmas2
import Verif.Ipc.ExportLemmas
/-!
# C17, C18: opened IPC mappings and the export/open round trip

`Reach sz max s pend op lost` and `PReach ps live made` (`Spec`, `ExportSpec`) say which histories
are covered: any interleaving of opens, closes, evictions and provider destructions in the
importing process, any history of allocating, freeing and exporting in the exporting one.
-/
set_option linter.unusedSimpArgs false
set_option linter.unusedVariables false
namespace Verif.Ipc
open Mem Tracker

/-! ### Example histories -/

def demoKey : Key := ⟨0x5000, 1, 77⟩
def demoKey2 : Key := ⟨0x6000, 2, 77⟩
def demoSz : Key → Nat → Nat := fun _ _ => 0x100

/-- One mapping, opened once (limit `max`). -/
def open1 (max : Nat) : St :=
  (mapStep (get (init max) demoKey 3 10 true).1 1 10 0x100 (.ok 0x1000) true).1

theorem open1_reach (max : Nat) :
    Reach demoSz max (open1 max) [] [⟨demoKey, 3, 0x1000⟩] [] := by
  have hget : get (init max) demoKey 3 10 true =
      ({ init max with lru := [⟨10, demoKey, 3, 1, 0, 0⟩], cur := 1 }, .success, 10) := by
    unfold get
    rw [show lookup (init max).lru demoKey = none from rfl]
    have hn : ¬ ((init max).max ≠ 0 ∧ (init max).cur ≥ (init max).max) := by
      show ¬ (max ≠ 0 ∧ 0 ≥ max)
      omega
    simp only
    rw [if_neg hn]
    rfl
  have r1 : Reach demoSz max { init max with lru := [⟨10, demoKey, 3, 1, 0, 0⟩], cur := 1 } [10] [] [] :=
    .get .init (by simp [init]) (by simp [init]) hget
  have r2 := Reach.map (e := ⟨10, demoKey, 3, 1, 0, 0⟩) (up := .ok 0x1000) (host := true)
    (s' := open1 max) (b := 0x1000) r1 (by simp) (by simp)
    (by intro b hb; cases hb; exact ⟨by decide, by decide, by decide, by simp [init]⟩)
    (by unfold open1; rw [hget]; rfl)
  exact r2

/-! ### C17 -/

/-- **C17**, mappings stay open. As long as some client has not closed a mapping, the provider that
opened it has not been asked to close it, at every point of every history (partial: histories
without a second handle for cached memory, `C17_newHandle_violated`). -/
theorem C17_staysOpen_partial {sz max s pend op lost} (h : Reach sz max s pend op lost) {t : Opened}
    (ht : t ∈ op) : (⟨t.key.prov, t.base, sz t.key t.hid⟩ : Mapping) ∈ s.maps := by
  have hi := reach_inv h
  obtain ⟨h1, e, h2, h3, h4, h5⟩ := hi.toks t ht
  obtain ⟨-, g2, g3⟩ := hi.mapped e h2 (h5 ▸ h1)
  rw [g3, h3, h4, h5] at g2
  exact g2

/-- **C17**, mapped once. While some client has a mapping open, opening the same handle succeeds
with the same address, whatever the upstream provider and the host allocator would answer, and
makes no mapping, closes none, and schedules no closing. -/
theorem C17_mappedOnce {sz max s pend op lost} (h : Reach sz max s pend op lost) {t : Opened}
    (ht : t ∈ op) (newId : Nat) (host : Bool) :
    ∃ s' id, get s t.key t.hid newId host = (s', .success, id) ∧
      s'.maps = s.maps ∧ s'.evict = s.evict ∧
      ∀ size up host2, mapStep s' t.key.prov id size up host2 = (s', .success, t.base) := by
  have hi := reach_inv h
  obtain ⟨h1, e, h2, h3, h4, h5⟩ := hi.toks t ht
  have hl : lookup s.lru t.key = some e := by
    cases hl : lookup s.lru t.key with
    | none => exact absurd h3 (lookup_none hl e h2)
    | some f =>
      obtain ⟨g1, g2⟩ := lookup_some hl
      rw [pairwise_eq (f := CEnt.key) hi.keys g1 h2 (g2.trans h3.symm)]
  have hg : get s t.key t.hid newId host =
      ({ s with lru := { e with ref := e.ref + 1 } :: s.lru.filter fun f => f.id ≠ e.id },
        .success, e.id) := by
    unfold get
    simp only [hl]
    rw [if_pos h4]
  refine ⟨_, _, hg, rfl, rfl, ?_⟩
  intro size up host2
  unfold mapStep
  simp only [List.find?_cons, BEq.rfl]
  rw [if_pos (by rw [h5]; exact h1), h5]

/-- **C17**, mapped once, for racing threads: all clients that have the same memory open have the
same mapping of it. -/
theorem C17_sameMapping {sz max s pend op lost} (h : Reach sz max s pend op lost) {t u : Opened}
    (ht : t ∈ op) (hu : u ∈ op) (hk : t.key = u.key) : t.base = u.base := by
  have hi := reach_inv h
  obtain ⟨_, e, h2, h3, _, h5⟩ := hi.toks t ht
  obtain ⟨_, f, g2, g3, _, g5⟩ := hi.toks u hu
  have := pairwise_eq (f := CEnt.key) hi.keys h2 g2 (by rw [h3, g3, hk])
  rw [← h5, ← g5, this]

/-- Distinct memory has distinct mappings. -/
theorem C17_distinctMapping {sz max s pend op lost} (h : Reach sz max s pend op lost) {t u : Opened}
    (ht : t ∈ op) (hu : u ∈ op) (hk : t.key ≠ u.key) :
    Disjoint (t.base, sz t.key t.hid) (u.base, sz u.key u.hid) := by
  have hi := reach_inv h
  obtain ⟨a1, e, h2, h3, h4, h5⟩ := hi.toks t ht
  obtain ⟨b1, f, g2, g3, g4, g5⟩ := hi.toks u hu
  have m1 := hi.mapped e h2 (h5 ▸ a1)
  have m2 := hi.mapped f g2 (g5 ▸ b1)
  intro x hx
  have := seg_eq hi.segsDisj (x := x) m1.1 m2.1 (by rw [h5, m1.2.2, h3, h4]; exact hx.1)
    (by rw [g5, m2.2.2, g3, g4]; exact hx.2)
  have hid : e = f := pairwise_eq (f := CEnt.id) hi.ids h2 g2 (congrArg Seg.id this)
  exact hk (by rw [← h3, ← g3, hid])

/-- **C17**, the limit. An open makes the cache grow only while it is below the limit, or when every
cached entry is in use: by a client, by a thread that is opening it, or (the defect of
`C17_failedOpen_violated`) by a failed open. -/
theorem C17_limit_partial {sz max s pend op lost} (h : Reach sz max s pend op lost) (hm : max ≠ 0)
    {key : Key} {hid newId : Nat} {host : Bool} {s' : St} {r : Res} {id : Nat}
    (hg : get s key hid newId host = (s', r, id)) :
    s'.lru.length ≤ max ∨ s'.lru.length ≤ s.lru.length ∨
    (∀ e ∈ s.lru, e.id ∈ pend ∨ e.id ∈ lost ∨ ∃ t ∈ op, t.key = e.key) := by
  have hi := reach_inv h
  have hfresh : fresh s key hid newId host = (s', r, id) →
      s'.lru.length ≤ s.lru.length + 1 := by
    intro hf
    unfold fresh at hf
    by_cases hh : host = false
    · rw [if_pos hh] at hf; cases hf; omega
    · rw [if_neg hh] at hf; cases hf; simp
  have hrep : ∀ e ∈ s.lru, (replace s e key hid).lru.length = s.lru.length := by
    intro e he
    show (_ :: _ : List CEnt).length = _
    rw [List.length_cons, length_filter_id hi.ids he]
  unfold get at hg
  cases hl : lookup s.lru key with
  | some e =>
    obtain ⟨h1, h2⟩ := lookup_some hl
    simp only [hl] at hg
    by_cases hc : e.hid = hid
    · rw [if_pos hc] at hg
      cases hg
      right; left
      show (_ :: _ : List CEnt).length ≤ _
      rw [List.length_cons, length_filter_id hi.ids h1]
      exact Nat.le_refl _
    · rw [if_neg hc] at hg
      cases hg
      exact Or.inr (Or.inl (Nat.le_of_eq (hrep e h1)))
  | none =>
    simp only [hl] at hg
    by_cases hc : s.max ≠ 0 ∧ s.cur ≥ s.max
    · rw [if_pos hc] at hg
      cases hcand : candidate s.lru with
      | some e =>
        simp only [hcand] at hg
        cases hg
        exact Or.inr (Or.inl (Nat.le_of_eq (hrep e (candidate_some hcand).1)))
      | none =>
        right; right
        intro e he
        have h1 := candidate_none hcand e he
        have h2 := hi.refs e he
        by_cases p1 : e.id ∈ pend
        · exact Or.inl p1
        by_cases p2 : e.id ∈ lost
        · exact Or.inr (Or.inl p2)
        rw [count_zero p1, count_zero p2] at h2
        have h3 : 0 < op.countP (fun t => t.base == e.base) := by omega
        obtain ⟨t, ht, hb⟩ := List.countP_pos_iff.1 h3
        have hb' : t.base = e.base := by simpa using hb
        obtain ⟨k1, f, k2, k3, k4, k5⟩ := hi.toks t ht
        have := ent_eq_of_base hi k2 he (k5.trans hb') (k5 ▸ k1)
        exact Or.inr (Or.inr ⟨t, ht, by rw [← k3, this]⟩)
    · rw [if_neg hc] at hg
      have h1 := hfresh hg
      have h2 := hi.cur
      have h3 := hi.mx
      left
      omega

example : (⟨1, 0x1000, 0x100⟩ : Mapping) ∈ (open1 1).maps :=
  C17_staysOpen_partial (open1_reach 1) (t := ⟨demoKey, 3, 0x1000⟩) (by simp)

example : ∃ s' id, get (open1 1) demoKey 3 99 false = (s', .success, id) ∧
    s'.maps = (open1 1).maps ∧ s'.evict = (open1 1).evict ∧
    ∀ size up host2, mapStep s' demoKey.prov id size up host2 = (s', .success, 0x1000) :=
  C17_mappedOnce (open1_reach 1) (t := ⟨demoKey, 3, 0x1000⟩) (by simp) 99 false

/-- With limit 1 and the only mapping in use, a second memory makes the cache grow. -/
example : (get (open1 1) demoKey2 5 11 true).1.lru.length = 2 ∧
    ((get (open1 1) demoKey2 5 11 true).1.lru.length ≤ 1 ∨
      (get (open1 1) demoKey2 5 11 true).1.lru.length ≤ (open1 1).lru.length ∨
      ∀ e ∈ (open1 1).lru, e.id ∈ ([] : List Nat) ∨ e.id ∈ ([] : List Nat) ∨
        ∃ t ∈ [(⟨demoKey, 3, 0x1000⟩ : Opened)], t.key = e.key) :=
  ⟨by decide +kernel, C17_limit_partial (open1_reach 1) (by decide) (key := demoKey2) (hid := 5)
    (newId := 11) (host := true) rfl⟩

/-- The state after the client has closed the mapping of `open1`. -/
def closed1 (max : Nat) : St := (close (open1 max) 0x1080).1

theorem closed1_reach (max : Nat) :
    Reach demoSz max (closed1 max) [] [] [] := by
  have := Reach.close (t := ⟨demoKey, 3, 0x1000⟩) (x := 0x1080) (open1_reach max) (by simp)
    ⟨by decide, by decide⟩ (s' := closed1 max) rfl
  have h0 : ([⟨demoKey, 3, 0x1000⟩] : List Opened).erase ⟨demoKey, 3, 0x1000⟩ = [] := by
    decide +kernel
  rw [h0] at this
  exact this

/-- **C17 is violated** when memory is opened again with a newer handle (the exporter freed it and
allocated at the same address) while a client still has the old mapping open: the old mapping is
closed under the client, and the client's own close then fails. -/
theorem C17_newHandle_violated : ∃ s : St, Reach demoSz 0 s [] [⟨demoKey, 3, 0x1000⟩] [] ∧
    s.maps = [⟨1, 0x1000, 0x100⟩] ∧
    ∃ s', get s demoKey 4 11 true = (s', .success, 10) ∧ s'.evict = [⟨1, 0x1000, 0x100⟩] ∧
      (evictCb s' ⟨1, 0x1000, 0x100⟩).maps = [] ∧
      (close (evictCb s' ⟨1, 0x1000, 0x100⟩) 0x1000).2 = .invalidArgument :=
  ⟨open1 0, open1_reach 0, by decide +kernel, (get (open1 0) demoKey 4 11 true).1,
    by decide +kernel, by decide +kernel, by decide +kernel, by decide +kernel⟩

/-- **C17 is violated**: the mapping of one provider is evicted by an open of another provider. The
close goes to the wrong provider: the mapping is no longer cached or tracked and stays open for
ever. -/
theorem C17_wrongProvider_violated : ∃ s : St, Reach demoSz 1 s [] [] [] ∧
    ∃ s', get s demoKey2 5 11 true = (s', .success, 10) ∧ s'.evict = [⟨2, 0x1000, 0x100⟩] ∧
      (evictCb s' ⟨2, 0x1000, 0x100⟩).maps = [⟨1, 0x1000, 0x100⟩] ∧
      (evictCb s' ⟨2, 0x1000, 0x100⟩).segs = [] ∧
      (evictCb s' ⟨2, 0x1000, 0x100⟩).evict = [] ∧
      ∀ e ∈ (evictCb s' ⟨2, 0x1000, 0x100⟩).lru, e.base ≠ 0x1000 :=
  ⟨closed1 1, closed1_reach 1, (get (closed1 1) demoKey2 5 11 true).1,
    by decide +kernel, by decide +kernel, by decide +kernel, by decide +kernel, by decide +kernel,
    by decide +kernel⟩

/-- Two mappings open with limit 1, then both closed. -/
def over : St :=
  let s1 := (get (open1 1) demoKey2 5 11 true).1
  let s2 := (mapStep s1 2 11 0x100 (.ok 0x2000) true).1
  (close (close s2 0x1000).1 0x2000).1

/-- The two mappings before they are closed. -/
def two : St :=
  (mapStep (get (open1 1) demoKey2 5 11 true).1 2 11 0x100 (.ok 0x2000) true).1

theorem two_reach :
    Reach demoSz 1 two [] [⟨demoKey2, 5, 0x2000⟩, ⟨demoKey, 3, 0x1000⟩] [] := by
  have r1 : Reach demoSz 1 (get (open1 1) demoKey2 5 11 true).1 [11] [⟨demoKey, 3, 0x1000⟩] [] :=
    .get (open1_reach 1) (by decide +kernel) (by decide +kernel)
      (hid := 5) (key := demoKey2) (newId := 11) (host := true) (by decide +kernel)
  have r2 := Reach.map (e := ⟨11, demoKey2, 5, 1, 0, 0⟩) (up := .ok 0x2000) (host := true)
    (s' := two) (b := 0x2000) r1 (by decide +kernel) (by decide)
    (by
      intro b hb; cases hb
      refine ⟨by decide, by decide, by decide, ?_⟩
      intro m hm
      have : m = ⟨1, 0x1000, 0x100⟩ := by
        have h0 : (get (open1 1) demoKey2 5 11 true).1.maps = [⟨1, 0x1000, 0x100⟩] := by
          decide +kernel
        rw [h0] at hm; simpa using hm
      subst this
      exact disjoint_of (Or.inr (by decide)))
    (by decide +kernel)
  exact r2

example : Disjoint (0x2000, 0x100) (0x1000, 0x100) :=
  C17_distinctMapping two_reach (t := ⟨demoKey2, 5, 0x2000⟩) (u := ⟨demoKey, 3, 0x1000⟩) (by simp)
    (by simp) (by decide)

theorem over_reach : Reach demoSz 1 over [] [] [] := by
  have r3 := Reach.close (t := ⟨demoKey, 3, 0x1000⟩) (x := 0x1000) two_reach (by decide +kernel)
    ⟨by decide, by decide⟩ rfl
  have r4 := Reach.close (t := ⟨demoKey2, 5, 0x2000⟩) (x := 0x2000) r3 (by decide +kernel)
    ⟨by decide, by decide⟩ rfl
  have h0 : ((([⟨demoKey2, 5, 0x2000⟩, ⟨demoKey, 3, 0x1000⟩] : List Opened).erase
      ⟨demoKey, 3, 0x1000⟩).erase ⟨demoKey2, 5, 0x2000⟩) = [] := by decide +kernel
  have r5 : Reach demoSz 1 over []
    ((([⟨demoKey2, 5, 0x2000⟩, ⟨demoKey, 3, 0x1000⟩] : List Opened).erase
      ⟨demoKey, 3, 0x1000⟩).erase ⟨demoKey2, 5, 0x2000⟩) [] := r4
  rw [h0] at r5
  exact r5

/-- **C17 is violated**: once the limit has been exceeded the cache does not shrink. Nothing is open,
every cached mapping is unreferenced, and there are two of them with limit 1; a further open does
not bring the number down. -/
theorem C17_limit_violated : ∃ s : St, Reach demoSz 1 s [] [] [] ∧ s.lru.length = 2 ∧
    s.maps.length = 2 ∧ (∀ e ∈ s.lru, e.ref = 0) ∧
    (get s ⟨0x7000, 1, 77⟩ 6 12 true).1.lru.length = 2 :=
  ⟨over, over_reach, by decide +kernel, by decide +kernel, by decide +kernel, by decide +kernel⟩

/-- **C17 is violated** by a failed open: its entry keeps a reference nobody can release, so it can
never be evicted, and with limit 1 the next open exceeds the limit although nothing is open. -/
theorem C17_failedOpen_violated : ∃ s : St, Reach demoSz 1 s [] [] [10] ∧ s.maps = [] ∧
    (∀ e ∈ s.lru, e.ref = 1) ∧ (get s demoKey2 5 11 true).1.lru.length = 2 := by
  have r1 : Reach demoSz 1 (get (init 1) demoKey 3 10 true).1 [10] [] [] :=
    .get .init (by simp [init]) (by simp [init]) (key := demoKey) (hid := 3) (newId := 10)
      (host := true) (by decide +kernel)
  have r2 := Reach.mapFail (e := ⟨10, demoKey, 3, 1, 0, 0⟩) (up := .fail 5) (host := true)
    (s' := (get (init 1) demoKey 3 10 true).1) (r := .upstream 5) (b := 0) r1 (by decide +kernel)
    (by decide) (by decide +kernel) (by decide)
  exact ⟨_, r2, by decide +kernel, by decide +kernel, by decide +kernel⟩

/-! ### C18 -/

/-- Handles with the same identifier are handles of the same memory (assumption `sz` of the opening
side), and the upstream data in a handle describes exactly the allocation the handle names. -/
theorem C18_handleIds_partial {ps live made} (h : PReach ps live made) :
    (∀ k ∈ made, ∀ j ∈ made, k.hid = j.hid → k.base = j.base ∧ k.size = j.size) ∧
    ∀ k ∈ made, k.dataBase = k.base ∧ k.dataSize = k.size ∧ k.offset < k.size :=
  ⟨(preach_inv h).ids, (preach_inv h).madeOk⟩

/-- After an allocation has been freed, a handle for a new allocation of the pool at the same
address has an identifier never used before, so an importer does not take it for the old one. -/
theorem C18_reallocated_partial {ps l1 a l2 made} (h : PReach ps (l1 ++ a :: l2) made)
    (hleaf : ∀ b ∈ l1, Disjoint b.range a.range) {fsize : Nat} {fhost : Bool} {size : Nat}
    {st' : Tracker.St} {host : Bool} (hf : Fresh (l1 ++ l2) (a.ptr, size))
    (hap : ∀ b ∈ l1 ++ l2, b.pool = a.pool → Disjoint b.range (a.ptr, size))
    (ha : trackingAlloc (freeP ps a.pool a.ptr fsize none fhost).tr a.pool size (.ok a.ptr) host =
      (st', .success, a.ptr, none)) {x : Nat} (hx : Has (a.ptr, size) x) {up : Option Nat}
    {host2 : Bool} {ps' : PSt} {k : Handle}
    (hg : getHandle { freeP ps a.pool a.ptr fsize none fhost with tr := st' } x up host2 =
      (ps', .success, some k)) : ∀ j ∈ made, j.hid ≠ k.hid := by
  have h1 : PReach { freeP ps a.pool a.ptr fsize none fhost with tr := st' }
      (⟨a.ptr, size, a.pool⟩ :: (l1 ++ l2)) made := .alloc (.free h hleaf) hf hap ha
  have hi := preach_inv h1
  rcases getHandle_cases hi hg with ⟨-, h2, -⟩ | ⟨-, b, v, hb, ho, -, -, hcase⟩
  · exact absurd rfl h2
  · have hba : b = ⟨a.ptr, size, a.pool⟩ := by
      obtain ⟨m1, m2, hm, hbx, hno, -⟩ := hb
      cases m1 with
      | nil => exact (List.cons.inj hm).1.symm
      | cons c m1 =>
        have := (List.cons.inj hm).1
        exact absurd (by rw [← this]; exact hx) (hno c (by simp))
    subst hba
    cases ho
    rcases hcase with ⟨rfl, hm⟩ | ⟨hv, -⟩
    · have h3 : ((a.pool, a.ptr), v) ∈ ps.cache.filter fun c => c.1 ≠ (a.pool, a.ptr) := hm
      rw [List.mem_filter] at h3
      simp at h3
    · intro j hj he
      have h3 := hi.hidsM j hj
      have h4 : v.hid = (freeP ps a.pool a.ptr fsize none fhost).nextId + 1 := hv
      have h5 : j.hid ≤ (freeP ps a.pool a.ptr fsize none fhost).nextId := h3
      have h6 : j.hid = v.hid := he
      omega

/-- **C18.** Export address `x` of allocation `a`; open the handle in another process, under any
schedule there (`t`: the open, at any time before its close). The mapping is one of memory
`[a.ptr, a.ptr + a.size)`; the address the client gets lies in it, as far from its start as `x` is
from the start of the allocation; closing at that address succeeds, takes exactly one reference
from that mapping and changes nothing else. Partial: no splits or merges in the exporter
(`C18_merge_violated`, `C18_reuse_violated`). -/
theorem C18_roundTrip_partial {ps live made} (hp : PReach ps live made) {x : Nat} {a : Alloc}
    (ha : Innermost live x a) {up : Option Nat} {host : Bool} {ps' : PSt} {k : Handle}
    (hk : getHandle ps x up host = (ps', .success, some k))
    {sz max s pend op lost} (h : Reach sz max s pend op lost) {t : Opened} (ht : t ∈ op)
    (hid : t.hid = k.hid) (hrem : t.key.remote = k.base) (hsz : sz t.key t.hid = k.size) :
    k.dataBase = a.ptr ∧ k.dataSize = a.size ∧
    (⟨t.key.prov, t.base, a.size⟩ : Mapping) ∈ s.maps ∧
    Has (t.base, a.size) (openedPtr t.base k.offset) ∧
    openedPtr t.base k.offset - t.base = x - a.ptr ∧
    (close s (openedPtr t.base k.offset)).2 = .success ∧
    (close s (openedPtr t.base k.offset)).1.maps = s.maps ∧
    (close s (openedPtr t.base k.offset)).1.segs = s.segs ∧
    (close s (openedPtr t.base k.offset)).1.evict = s.evict ∧
    (close s (openedPtr t.base k.offset)).1.lru =
      s.lru.map fun e => if e.key = t.key then { e with ref := e.ref - 1 } else e := by
  have hi := reach_inv h
  have hpi := preach_inv hp
  rcases getHandle_cases hpi hk with ⟨-, h1, -⟩ | ⟨-, b, v, hb, ho, hv1, hv2, -⟩
  · exact absurd rfl h1
  have hba : b = a := by
    have e1 := ((C14_poolByPtr hpi.tr x).1 a ha).2
    have e2 := ((C14_poolByPtr hpi.tr x).1 b hb).2
    rw [e1] at e2
    obtain ⟨i1, i2, i3⟩ : a.ptr = b.ptr ∧ a.size = b.size ∧ a.pool = b.pool := by simpa using e2
    cases a; cases b; simp_all
  subst hba
  cases ho
  obtain ⟨-, hx⟩ := innermost_mem hb
  have hx1 : b.ptr ≤ x := hx.1
  have hx2 : x < b.ptr + b.size := hx.2
  have hsz' : sz t.key t.hid = b.size := hsz
  have hmap := C17_staysOpen_partial h ht
  rw [hsz'] at hmap
  obtain ⟨t0, e, e1, e2, e3, e4⟩ := hi.toks t ht
  obtain ⟨m1, m2, m3⟩ := hi.mapped e e1 (e4 ▸ t0)
  have hbound := (hi.segsOk _ m1).2.2.1
  have hes : e.size = b.size := by rw [m3, e2, e3, hsz']
  have hb64 : t.base + b.size < 2 ^ 64 := by
    have : e.base + e.size < 2 ^ 64 := hbound
    omega
  have hq : openedPtr t.base (mkHandle v b.ptr b.size x).offset = t.base + (x - b.ptr) := by
    show (t.base + (x - b.ptr)) % 2 ^ 64 = _
    exact Nat.mod_eq_of_lt (by omega)
  rw [hq]
  have hin : Has (t.base, b.size) (t.base + (x - b.ptr)) := by
    constructor
    · show t.base ≤ t.base + (x - b.ptr); omega
    · show t.base + (x - b.ptr) < t.base + b.size; omega
  obtain ⟨f, f1, f2, f3, f4, f5⟩ := close_eq hi ht (x := t.base + (x - b.ptr))
    (by rw [hsz']; exact hin)
  rw [f5]
  refine ⟨hv1, hv2, hmap, hin, by omega, rfl, rfl, rfl, rfl, ?_⟩
  show s.lru.map _ = s.lru.map _
  refine List.map_congr_left fun g hg => ?_
  have hiff : g.id = f.id ↔ g.key = t.key := by
    rw [← f2]
    exact ⟨fun h0 => by rw [pairwise_eq (f := CEnt.id) hi.ids hg f1 h0],
      fun h0 => by rw [pairwise_eq (f := CEnt.key) hi.keys hg f1 h0]⟩
  by_cases hc : g.id = f.id
  · have : g = f := pairwise_eq (f := CEnt.id) hi.ids hg f1 hc
    subst this
    rw [if_pos rfl, if_pos f2]
    have hpos : g.ref ≠ 0 := by
      have r1 := hi.refs g hg
      have r2 : 0 < op.countP (fun u => u.base == g.base) :=
        List.countP_pos_iff.2 ⟨t, ht, by simp [f4]⟩
      omega
    rw [if_neg hpos]
  · rw [if_neg hc, if_neg (fun h0 => hc (hiff.2 h0))]

/-! The hypotheses are met: pool 1 has `[0x5000, 0x5100)`; a handle for `0x5040`; opened at `0x1000`. -/

def exp0 : PSt := allocP PSt.empty 1 0x100 0x5000

theorem exp0_reach : PReach exp0 [⟨0x5000, 0x100, 1⟩] [] :=
  .alloc (host := true) .init ⟨by decide, by decide, by decide, by simp⟩ (by simp) rfl

def expHandle : Handle := ⟨1, 0x5000, 0x100, 0x40, 0x5000, 0x100⟩

theorem exp0_handle : ∃ ps', getHandle exp0 0x5040 none true = (ps', .success, some expHandle) :=
  ⟨_, rfl⟩

/-- As `open1`, for the handle `expHandle`. -/
def imp : St := (mapStep (get (init 4) demoKey 1 10 true).1 1 10 0x100 (.ok 0x1000) true).1

theorem imp_reach : Reach demoSz 4 imp [] [⟨demoKey, 1, 0x1000⟩] [] := by
  have r1 : Reach demoSz 4 (get (init 4) demoKey 1 10 true).1 [10] [] [] :=
    .get .init (by simp [init]) (by simp [init]) (key := demoKey) (hid := 1) (newId := 10)
      (host := true) (by decide +kernel)
  have r2 := Reach.map (e := ⟨10, demoKey, 1, 1, 0, 0⟩) (up := .ok 0x1000) (host := true)
    (s' := imp) (b := 0x1000) r1 (by decide +kernel) (by decide)
    (by
      intro b hb; cases hb
      refine ⟨by decide, by decide, by decide, ?_⟩
      have h0 : (get (init 4) demoKey 1 10 true).1.maps = [] := by decide +kernel
      rw [h0]; simp)
    (by decide +kernel)
  exact r2

example : openedPtr 0x1000 expHandle.offset - 0x1000 = 0x5040 - 0x5000 := by
  obtain ⟨ps', hg⟩ := exp0_handle
  exact (C18_roundTrip_partial exp0_reach (x := 0x5040) (a := ⟨0x5000, 0x100, 1⟩)
    ⟨[], [], rfl, ⟨by decide, by decide⟩, by simp, by simp⟩ hg imp_reach
    (t := ⟨demoKey, 1, 0x1000⟩) (by simp) rfl rfl rfl).2.2.2.2.1

/-- The allocation is exported, freed, and its address allocated and exported again. -/
example : ∃ ps' k, getHandle { freeP (getHandle exp0 0x5040 none true).1 1 0x5000 0x100 none true with
      tr := (trackingAlloc (freeP (getHandle exp0 0x5040 none true).1 1 0x5000 0x100 none true).tr 1
        0x80 (.ok 0x5000) true).1 } 0x5010 none true = (ps', .success, some k) ∧
    ∀ j ∈ [expHandle], j.hid ≠ k.hid := by
  have h1 : PReach (getHandle exp0 0x5040 none true).1 ([] ++ ⟨0x5000, 0x100, 1⟩ :: []) [expHandle] :=
    .export exp0_reach (x := 0x5040) (up := none) (host := true) rfl
  refine ⟨_, _, rfl, ?_⟩
  exact C18_reallocated_partial h1 (by simp) (fsize := 0x100) (fhost := true) (size := 0x80)
    (host := true) ⟨by decide, by decide, by decide, by simp⟩ (by simp) rfl (x := 0x5010)
    ⟨by decide, by decide⟩ (up := none) (host2 := true) rfl

/-- **C18 is violated** after a merge: the cached handle of the low part is given out for the merged
allocation. Its upstream data covers the low part only (0x100 bytes), the offset is 0x180: the
address the importer computes is not in the mapping. -/
theorem C18_merge_violated :
    let s1 := allocP (allocP PSt.empty 1 0x100 0x5000) 1 0x100 0x5100
    let s2 := (getHandle s1 0x5000 none true).1
    let s3 := mergeP s2 1 0x5000 0x5100 0x200
    ∃ s4 k, getHandle s3 0x5180 none true = (s4, .success, some k) ∧ k.base = 0x5000 ∧
      k.size = 0x200 ∧ k.offset = 0x180 ∧ k.dataBase = 0x5000 ∧ k.dataSize = 0x100 := by
  refine ⟨_, _, rfl, ?_⟩
  decide +kernel

/-- **C18 is violated** after a merge and a free: the handle cached for the high part outlives the
memory. A later allocation at that address gets the handle, the identifier and the upstream data of
the freed memory. -/
theorem C18_reuse_violated :
    let s1 := allocP (allocP PSt.empty 1 0x100 0x5000) 1 0x100 0x5100
    let s2 := getHandle s1 0x5100 none true
    let s3 := freeP (mergeP s2.1 1 0x5000 0x5100 0x200) 1 0x5000 0x200 none true
    let s4 := allocP s3 1 0x400 0x5100
    ∃ k0 s5 k, s2.2.2 = some k0 ∧ Tracker.getAllocInfo s3.tr 0x5100 = none ∧
      getHandle s4 0x5300 none true = (s5, .success, some k) ∧ k.hid = k0.hid ∧
      k.size = 0x400 ∧ k.dataSize = 0x100 := by
  refine ⟨⟨1, 0x5100, 0x100, 0, 0x5100, 0x100⟩, _, _, ?_, ?_, rfl, ?_⟩
  all_goals decide +kernel

end Verif.Ipc
