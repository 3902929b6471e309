import Verif.IpcMem.Tables
import Verif.IpcMem.Spec
/-!
# Lemmas for the cache of opened IPC handles: the invariant and its parts
-/
namespace Verif.IpcMem

def ids (l : List Ipc.CEnt) : List Addr := l.map fun e => e.id

/-- The entry at `a` as its users see it. -/
def entAt (s : St) (a : Addr) : Ipc.CEnt :=
  ⟨a, (s.data a).key, (s.data a).hid, (s.data a).ref, (s.data a).base, (s.data a).size⟩

/-- The global data: the limit, the number of entries, the list. -/
def GlobOk (s : St) (W : World) : Prop :=
  match W.max with
  | none => s.glob = none ∧ W.lru = [] ∧ ∀ c, W.prov c = none
  | some m => ∃ h, s.glob = some ⟨m, W.lru.length, h⟩ ∧ Dl (s.link .next) (s.link .prev) h (ids W.lru)

/-- The blocks are what the users know; `x` is an entry that is in no list. -/
structure Inv (hash : Key → Nat) (s : St) (W : World) (own : Addr → List Addr) (x : Option Addr) : Prop where
  glob : GlobOk s W
  ent : ∀ e ∈ W.lru, entAt s e.id = e
  hashv : ∀ e ∈ W.lru, (s.data e.id).hashv = hash e.key
  live : ∀ a, s.live a = true ↔ a ∈ ids W.lru ∨ x = some a
  ext : ∀ a, x = some a → a ∉ ids W.lru ∧ a ≠ 0
  caches : ∀ c, s.caches c = none ↔ W.prov c = none
  owned : ∀ c a, a ∈ own c → a ∈ ids W.lru
  owner : ∀ e ∈ W.lru, ∃ c, e.id ∈ own c ∧ W.prov c = some e.key.prov
  inj : ∀ c c' p, W.prov c = some p → W.prov c' = some p → c = c'
  keys : (W.lru.map fun e => e.key).Nodup
  tables : Tables s own

variable {hash : Key → Nat} {s : St} {W : World} {own : Addr → List Addr} {x : Option Addr}

theorem Inv.nodup (h : Inv hash s W own x) : (ids W.lru).Nodup := by
  have := h.glob
  unfold GlobOk at this
  cases hm : W.max with
  | none =>
    rw [hm] at this
    rw [this.2.1]
    exact List.nodup_nil
  | some m =>
    rw [hm] at this
    obtain ⟨g, -, hd⟩ := this
    exact hd.nodup

theorem Inv.zero (h : Inv hash s W own x) : 0 ∉ ids W.lru := by
  have := h.glob
  unfold GlobOk at this
  cases hm : W.max with
  | none =>
    rw [hm] at this
    rw [this.2.1]
    simp [ids]
  | some m =>
    rw [hm] at this
    obtain ⟨g, -, hd⟩ := this
    exact hd.zero

theorem Inv.max (h : Inv hash s W own x) {c : Addr} (hc : W.prov c ≠ none) : ∃ m, W.max = some m := by
  have := h.glob
  unfold GlobOk at this
  cases hm : W.max with
  | none =>
    rw [hm] at this
    exact absurd (this.2.2 c) hc
  | some m => exact ⟨m, rfl⟩

theorem Inv.globAt (h : Inv hash s W own x) {m : Nat} (hm : W.max = some m) :
    ∃ g, s.glob = some ⟨m, W.lru.length, g⟩ ∧ Dl (s.link .next) (s.link .prev) g (ids W.lru) := by
  have := h.glob
  unfold GlobOk at this
  rw [hm] at this
  exact this

theorem mem_ids {l : List Ipc.CEnt} {e : Ipc.CEnt} (h : e ∈ l) : e.id ∈ ids l := List.mem_map_of_mem h

theorem Inv.uniq (h : Inv hash s W own x) {e f : Ipc.CEnt} (he : e ∈ W.lru) (hf : f ∈ W.lru) (hi : e.id = f.id) : e = f := by
  rw [← h.ent e he, ← h.ent f hf, hi]

theorem Inv.mem (h : Inv hash s W own x) {a : Addr} (ha : a ∈ ids W.lru) : entAt s a ∈ W.lru := by
  obtain ⟨e, he, rfl⟩ := List.mem_map.1 ha
  rw [h.ent e he]
  exact he

theorem Inv.cacheOf (h : Inv hash s W own x) {c : Addr} (hc : W.prov c ≠ none) : s.caches c = some ((own c).headD 0) := by
  cases hs : s.caches c with
  | none => exact absurd ((h.caches c).1 hs) hc
  | some v => rw [h.tables.head c v hs]

theorem Inv.own_nodup (h : Inv hash s W own x) (c : Addr) : (own c).Nodup := by
  by_cases hc : own c = []
  · rw [hc]
    exact List.nodup_nil
  · obtain ⟨T, t, r, B, e⟩ := h.tables.tab c hc
    exact e.nodup

theorem Inv.own_length (h : Inv hash s W own x) (c : Addr) : (own c).length ≤ W.lru.length := by
  have := (List.subperm_of_subset (h.own_nodup c) fun a ha => h.owned c a ha).length_le
  simpa [ids] using this

theorem Inv.prov_of_own (h : Inv hash s W own x) {c : Addr} {e : Ipc.CEnt} (he : e ∈ W.lru) (hc : e.id ∈ own c) :
    W.prov c = some e.key.prov := by
  obtain ⟨c', h1, h2⟩ := h.owner e he
  rw [← h.tables.mine c _ hc, h.tables.mine c' _ h1]
  exact h2

/-- The entries without the one at `a`. -/
abbrev without (l : List Ipc.CEnt) (a : Addr) : List Ipc.CEnt := l.filter fun f => f.id ≠ a

theorem ids_without (l : List Ipc.CEnt) (a : Addr) (h : (ids l).Nodup) : ids (without l a) = (ids l).erase a := by
  rw [h.erase_eq_filter]
  unfold ids
  rw [List.filter_map]
  congr 1
  refine List.filter_congr fun y _ => ?_
  simp only [Function.comp, bne]
  by_cases hy : y.id = a <;> simp [hy]

theorem length_without {l : List Ipc.CEnt} {e : Ipc.CEnt} (h : (ids l).Nodup) (he : e ∈ l) :
    (without l e.id).length = l.length - 1 := by
  have h1 := congrArg List.length (ids_without l e.id h)
  rw [List.length_erase_of_mem (mem_ids he)] at h1
  simpa [ids] using h1

/-- An entry is taken out of the list and of its table. -/
theorem remove_ok {m : Nat} (h : Inv hash s W own none) (hm : W.max = some m) {e : Ipc.CEnt} (he : e ∈ W.lru) {c : Addr}
    (hc : e.id ∈ own c) :
    ∃ s1 s2 g2, dlDelete e.id s = .ok () s1 ∧ s1.live = s.live ∧ s1.data = s.data ∧ hashDel c e.id s1 = .ok () s2 ∧
      s2.glob = some ⟨m, W.lru.length, g2⟩ ∧ s2.live = s.live ∧ s2.data = s.data ∧ s2.host = s.host ∧
      (∀ a, fresh s a = true → fresh s2 a = true) ∧
      Inv hash { s2 with glob := some ⟨m, W.lru.length - 1, g2⟩ } { W with lru := without W.lru e.id }
        (upd own c ((own c).erase e.id)) (some e.id) := by
  obtain ⟨g, hg, hd⟩ := h.globAt hm
  have hlive : ∀ a ∈ ids W.lru, s.live a = true := fun a ha => (h.live a).2 (.inl ha)
  obtain ⟨L, g2, e1, e2, e3⟩ := dlDelete_ok hg hd hlive (mem_ids he)
  let s1 : St := { s with link := L, glob := some ⟨m, W.lru.length, g2⟩ }
  have hT1 : Tables s1 own := h.tables.congr (fun _ _ _ => rfl) (fun _ a _ k h1 h2 => by show L k a = _; rw [e3 k h1 h2])
    (fun _ _ _ => ⟨rfl, rfl⟩) rfl rfl rfl
  have hpc := h.prov_of_own he hc
  have hcc : s1.caches c = some ((own c).headD 0) := h.cacheOf (by rw [hpc]; simp)
  obtain ⟨s2, f1, f2, f3, f4, f5, f6, f7, f8, f9, f10⟩ := hashDel_ok hT1 hcc hc
  refine ⟨s1, s2, g2, e1, rfl, rfl, f1, f4, f3, f6, f7, fun a ha => f9 a ha, ?_⟩
  have hsub : ∀ f ∈ without W.lru e.id, f ∈ W.lru ∧ f.id ≠ e.id := fun f hf => by simpa using List.mem_filter.1 hf
  have hids : ids (without W.lru e.id) = (ids W.lru).erase e.id := ids_without _ _ h.nodup
  have hown : ∀ c' a, a ∈ upd own c ((own c).erase e.id) c' → a ∈ own c' ∧ a ≠ e.id := by
    intro c' a ha
    by_cases hx : c' = c
    · rw [hx, upd_same] at ha
      rw [hx]
      exact ⟨List.mem_of_mem_erase ha, fun e' => by rw [e', (h.own_nodup c).mem_erase_iff] at ha; exact ha.1 rfl⟩
    · rw [upd_ne _ _ hx] at ha
      refine ⟨ha, fun e' => hx ?_⟩
      rw [e'] at ha
      exact (h.tables.mine c' _ ha).symm.trans (h.tables.mine c _ hc)
  refine ⟨?_, ?_, ?_, ?_, ?_, ?_, ?_, ?_, h.inj, ?_, ?_⟩
  · unfold GlobOk
    dsimp only
    rw [hm]
    refine ⟨g2, by rw [length_without h.nodup he], ?_⟩
    rw [hids, f5 _ (.inl rfl), f5 _ (.inr rfl)]
    exact e2
  · intro f hf
    show entAt s2 f.id = f
    have := h.ent f (hsub f hf).1
    unfold entAt at this ⊢
    rw [f6]
    exact this
  · intro f hf
    show (s2.data f.id).hashv = _
    rw [f6]
    exact h.hashv f (hsub f hf).1
  · intro a
    show s2.live a = true ↔ _
    rw [f3]
    show s.live a = true ↔ _
    rw [h.live a, hids, h.nodup.mem_erase_iff]
    constructor
    · rintro (h1 | h1)
      · by_cases h2 : a = e.id
        · exact .inr (by rw [h2])
        · exact .inl ⟨h2, h1⟩
      · cases h1
    · rintro (h1 | h1)
      · exact .inl h1.2
      · cases h1
        exact .inl (mem_ids he)
  · intro a ha
    cases ha
    dsimp only
    rw [hids, h.nodup.mem_erase_iff]
    exact ⟨fun h' => h'.1 rfl, fun e' => h.zero (e' ▸ mem_ids he)⟩
  · intro c'
    show s2.caches c' = none ↔ _
    rw [f8 c']
    exact h.caches c'
  · intro c' a ha
    have := hown c' a ha
    dsimp only
    rw [hids, h.nodup.mem_erase_iff]
    exact ⟨this.2, h.owned c' a this.1⟩
  · intro f hf
    obtain ⟨c', h1, h2⟩ := h.owner f (hsub f hf).1
    refine ⟨c', ?_, h2⟩
    by_cases hx : c' = c
    · rw [hx] at h1 ⊢
      rw [upd_same, (h.own_nodup c).mem_erase_iff]
      exact ⟨(hsub f hf).2, h1⟩
    · rw [upd_ne _ _ hx]
      exact h1
  · exact h.keys.sublist (List.filter_sublist.map _)
  · exact f2.congr (fun _ _ _ => rfl) (fun _ _ _ _ _ _ => rfl) (fun _ _ _ => ⟨rfl, rfl⟩) rfl rfl rfl

/-- An entry that is in no list gets a key and is put into the list and into the table of a cache. -/
theorem fill_ok {m : Nat} {e : Addr} (h : Inv hash s W own (some e)) (hm : W.max = some m) {c : Addr} {key : Key} {hid : Nat}
    (hc : W.prov c = some key.prov) (hk : ∀ f ∈ W.lru, f.key ≠ key) {fuel : Nat} (hf : W.lru.length + 1 < fuel) :
    (fill hash fuel c e key hid s = .exit ∧ ¬ Rich 3 s) ∨
    ∃ s' own', fill hash fuel c e key hid s = .ok () s' ∧
      Inv hash s' { W with lru := ⟨e, key, hid, 1, 0, 0⟩ :: W.lru } own' none := by
  obtain ⟨g, hg, hd⟩ := h.globAt hm
  obtain ⟨hen, he0⟩ := h.ext e rfl
  have hle : s.live e = true := (h.live e).2 (.inr rfl)
  let d : Data := { s.data e with key := key, ref := 0, hid := hid, table := c, size := 0, base := 0 }
  let s1 : St := { s with data := upd s.data e d }
  have hnown : ∀ c', e ∉ own c' := fun c' h' => hen (h.owned c' e h')
  have hT1 : Tables s1 own := by
    refine h.tables.congr (fun _ _ _ => rfl) (fun _ a _ k h1 h2 => rfl) (fun c' a ha => ?_) rfl rfl rfl
    have : a ≠ e := fun e' => hnown c' (e' ▸ ha)
    show (upd s.data e d a).hashv = _ ∧ (upd s.data e d a).table = _
    rw [upd_ne _ _ this]
    exact ⟨rfl, rfl⟩
  have hcc : s1.caches c = some ((own c).headD 0) := h.cacheOf (by rw [hc]; simp)
  have hlen := h.own_length c
  have hde : s1.data e = d := upd_same _ _ _
  rcases hashAdd_ok (hash := hash) hT1 hcc hnown he0 hle (by rw [hde]) (fuel := fuel) (by omega) with
    ⟨e1, e2⟩ | ⟨s2, f1, f2, f3, f4, f5, f6, f7⟩
  · refine .inl ⟨?_, fun hR => e2 (hR.mono rfl fun _ h' => h')⟩
    simp only [fill, bind_app, getD_app hle, setD_app hle]
    rw [show hashAdd hash fuel c e { s with data := upd s.data e { s.data e with key := key, ref := 0, hid := hid, table := c, size := 0, base := 0 } } = .exit from e1]
  · have hg2 : s2.glob = some ⟨m, W.lru.length, g⟩ := by rw [f4]; exact hg
    have hd2 : Dl (s2.link .next) (s2.link .prev) g (ids W.lru) := by
      rw [f5 _ (.inl rfl), f5 _ (.inr rfl)]
      exact hd
    have hl2 : ∀ a ∈ ids W.lru, s2.live a = true := fun a ha => by rw [f3]; exact (h.live a).2 (.inl ha)
    have hle2 : s2.live e = true := by rw [f3]; exact hle
    obtain ⟨L, k1, k2, k3⟩ := dlPrepend_ok hg2 hd2 hl2 hle2 hen he0
    have hd2e : s2.data e = { d with hashv := hash key } := by
      rw [f6, upd_same, hde]
    let s4 : St := { s2 with
      link := L, glob := some ⟨m, W.lru.length + 1, e⟩, data := upd s2.data e { d with hashv := hash key, ref := 1 } }
    refine .inr ⟨s4, upd own c (own c ++ [e]), ?_, ?_⟩
    · simp only [fill, bind_app, getD_app hle, setD_app hle]
      rw [show hashAdd hash fuel c e { s with data := upd s.data e { s.data e with key := key, ref := 0, hid := hid, table := c, size := 0, base := 0 } } = .ok () s2 from f1]
      dsimp only
      rw [k1]
      simp only [getG, setG, getD, setD, hle2, ↓reduceIte, hd2e, s4]
      rfl
    · have hdo : ∀ a, a ≠ e → s4.data a = s.data a := by
        intro a ha
        show upd s2.data e _ a = _
        rw [upd_ne _ _ ha, f6, upd_ne _ _ ha]
        exact upd_ne _ _ ha
      have hne : ∀ f ∈ W.lru, f.id ≠ e := fun f hf' e' => hen (e' ▸ mem_ids hf')
      have hd4 : s4.data e = { d with hashv := hash key, ref := 1 } := upd_same _ _ _
      refine ⟨?_, ?_, ?_, ?_, ?_, ?_, ?_, ?_, h.inj, ?_, ?_⟩
      · unfold GlobOk
        dsimp only
        rw [hm]
        exact ⟨e, rfl, k2⟩
      · intro f hf'
        simp only [List.mem_cons] at hf'
        rcases hf' with rfl | hf'
        · unfold entAt
          dsimp only
          rw [hd4]
        · have := h.ent f hf'
          unfold entAt at this ⊢
          rw [hdo _ (hne f hf')]
          exact this
      · intro f hf'
        simp only [List.mem_cons] at hf'
        rcases hf' with rfl | hf'
        · dsimp only
          rw [hd4]
        · rw [hdo _ (hne f hf')]
          exact h.hashv f hf'
      · intro a
        show s2.live a = true ↔ a ∈ e :: ids W.lru ∨ _
        rw [f3]
        show s.live a = true ↔ _
        rw [h.live a]
        simp only [List.mem_cons, Option.some.injEq, reduceCtorEq, or_false]
        rw [or_comm, eq_comm]
      · intro a ha
        cases ha
      · intro c'
        show s2.caches c' = none ↔ _
        rw [f7 c']
        exact h.caches c'
      · intro c' a ha
        show a ∈ e :: ids W.lru
        by_cases hx : c' = c
        · rw [hx, upd_same] at ha
          simp only [List.mem_append, List.mem_singleton] at ha
          rcases ha with ha | rfl
          · exact List.mem_cons_of_mem _ (h.owned c a ha)
          · simp
        · rw [upd_ne _ _ hx] at ha
          exact List.mem_cons_of_mem _ (h.owned c' a ha)
      · intro f hf'
        simp only [List.mem_cons] at hf'
        rcases hf' with rfl | hf'
        · exact ⟨c, by rw [upd_same]; simp, hc⟩
        · obtain ⟨c', h1, h2⟩ := h.owner f hf'
          refine ⟨c', ?_, h2⟩
          by_cases hx : c' = c
          · rw [hx] at h1 ⊢
            rw [upd_same]
            simp [h1]
          · rw [upd_ne _ _ hx]
            exact h1
      · show (key :: W.lru.map fun e => e.key).Nodup
        refine List.nodup_cons.2 ⟨fun h' => ?_, h.keys⟩
        obtain ⟨f, hf', e'⟩ := List.mem_map.1 h'
        exact hk f hf' e'
      · refine f2.congr (fun _ _ _ => rfl) (fun _ a _ k h1 h2 => ?_) (fun c' a _ => ?_) rfl rfl rfl
        · show L k a = _
          rw [k3 k h1 h2]
        · show (upd s2.data e _ a).hashv = _ ∧ (upd s2.data e _ a).table = _
          by_cases hae : a = e
          · rw [hae, upd_same, hd2e]
            exact ⟨rfl, rfl⟩
          · rw [upd_ne _ _ hae]
            exact ⟨rfl, rfl⟩

end Verif.IpcMem
