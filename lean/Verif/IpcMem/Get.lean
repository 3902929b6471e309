import Verif.IpcMem.Inv
/-!
# Lemmas for the cache of opened IPC handles: getting an entry
-/
namespace Verif.IpcMem

variable {hash : Key → Nat} {s : St} {W : World} {own : Addr → List Addr} {x : Option Addr}

theorem key_inj {l : List Ipc.CEnt} (h : (l.map fun e => e.key).Nodup) {e f : Ipc.CEnt} (he : e ∈ l) (hf : f ∈ l)
    (hk : e.key = f.key) : e = f := by
  induction l with
  | nil => cases he
  | cons y l ih =>
    simp only [List.map_cons, List.nodup_cons, List.mem_map, not_exists, not_and] at h
    simp only [List.mem_cons] at he hf
    rcases he with rfl | he <;> rcases hf with rfl | hf
    · rfl
    · exact absurd hk.symm (h.1 f hf)
    · exact absurd hk (h.1 e he)
    · exact ih h.2 he hf

theorem lookup_some {l : List Ipc.CEnt} (h : (l.map fun e => e.key).Nodup) {e : Ipc.CEnt} (he : e ∈ l) :
    Ipc.lookup l e.key = some e := by
  unfold Ipc.lookup
  cases hf : l.find? fun f => f.key == e.key with
  | none =>
    have := List.find?_eq_none.1 hf e he
    simp at this
  | some f =>
    have h1 := List.find?_some hf
    rw [key_inj h he (List.mem_of_find?_eq_some hf) (by simpa using (beq_iff_eq.1 h1).symm)]

theorem lookup_none {l : List Ipc.CEnt} {key : Key} (h : ∀ f ∈ l, f.key ≠ key) : Ipc.lookup l key = none :=
  List.find?_eq_none.2 fun f hf => by simpa using h f hf

theorem find_ids {p : Addr → Bool} {q : Ipc.CEnt → Bool} : ∀ {l : List Ipc.CEnt}, (∀ e ∈ l, p e.id = q e) →
    (l.map fun e => e.id).find? p = (l.find? q).map fun e => e.id := by
  intro l
  induction l with
  | nil => intro _; rfl
  | cons y l ih =>
    intro h
    have h1 := h y (by simp)
    rw [List.map_cons, List.find?_cons, List.find?_cons, h1]
    cases q y with
    | true => rfl
    | false => exact ih fun e he => h e (by simp [he])

/-- The search by key finds the entry with the key. -/
theorem find_ok (h : Inv hash s W own x) {c : Addr} {key : Key} (hc : W.prov c = some key.prov) {fuel : Nat}
    (hf : W.lru.length < fuel) :
    (∃ e ∈ W.lru, e.key = key ∧ hashFind hash fuel c key s = .ok e.id s) ∨
    (hashFind hash fuel c key s = .ok 0 s ∧ ∀ e ∈ W.lru, e.key ≠ key) := by
  have hcc : s.caches c = some ((own c).headD 0) := h.cacheOf (by rw [hc]; simp)
  have hnone : (∀ a ∈ own c, (s.data a).key ≠ key) → ∀ e ∈ W.lru, e.key ≠ key := by
    intro h' e he hk
    obtain ⟨c', h1, h2⟩ := h.owner e he
    rw [hk] at h2
    rw [h.inj c' c _ h2 hc] at h1
    have h3 := congrArg Ipc.CEnt.key (h.ent e he)
    exact h' _ h1 (h3.trans hk)
  by_cases h0 : own c = []
  · rw [h0] at hcc
    exact .inr ⟨hashFind_empty hcc, hnone (by rw [h0]; nofun)⟩
  · obtain ⟨T, t, r, B, hok⟩ := h.tables.tab c h0
    have hlen := h.own_length c
    obtain ⟨y, e1, e2⟩ := hashFind_ok (hash := hash) (key := key) hok hcc h0 (fun a ha => by
      have h1 := h.hashv _ (h.mem (h.owned c a ha))
      exact h1) (fuel := fuel) (by omega)
    rcases e2 with ⟨h1, h2⟩ | ⟨rfl, h2⟩
    · exact .inl ⟨entAt s y, h.mem (h.owned c y h1), h2, e1⟩
    · exact .inr ⟨e1, hnone h2⟩

/-- The search for a candidate finds the one of the abstract model. -/
theorem cand_ok {m : Nat} (h : Inv hash s W own x) (hm : W.max = some m) (hne : W.lru ≠ []) {fuel : Nat} (hf : W.lru.length < fuel) :
    ∃ g, s.glob = some ⟨m, W.lru.length, g⟩ ∧ s.live g = true ∧
      candidate fuel (s.link .prev g) s = .ok (((Ipc.candidate W.lru).map fun e => e.id).getD 0) s := by
  obtain ⟨g, hg, hd⟩ := h.globAt hm
  have hlive : ∀ a ∈ ids W.lru, s.live a = true := fun a ha => (h.live a).2 (.inl ha)
  have hne' : ids W.lru ≠ [] := by simpa [ids] using hne
  have hh := hd.head
  have hgm : g ∈ ids W.lru := by
    rw [hh]
    cases hi : ids W.lru with
    | nil => exact absurd hi hne'
    | cons y k => simp
  refine ⟨g, hg, hlive g hgm, ?_⟩
  have hp : s.link .prev g = (ids W.lru).getLastD 0 := by
    have := hd.seg
    rw [hh]
    cases hi : ids W.lru with
    | nil => exact absurd hi hne'
    | cons y k =>
      rw [hi] at this
      exact this.1.1
  have hsplit : ids W.lru = (ids W.lru).dropLast ++ (ids W.lru).getLastD 0 :: [] := by
    generalize ids W.lru = l at hne'
    induction l using List.reverseRecOn with
    | nil => exact absurd rfl hne'
    | append_singleton l y _ => simp
  rw [hp, candidate_ok hg hd hlive _ _ _ hsplit fuel (by simp [ids]; omega)]
  rw [← hsplit]
  unfold Ipc.candidate
  have hq : ∀ e ∈ W.lru.reverse, (fun a => decide ((s.data a).ref = 0)) e.id = (fun e : Ipc.CEnt => e.ref == 0) e := by
    intro e he
    have := congrArg Ipc.CEnt.ref (h.ent e (List.mem_reverse.1 he))
    have h2 : (s.data e.id).ref = e.ref := this
    show decide ((s.data e.id).ref = 0) = (e.ref == 0)
    rw [h2]
    rfl
  have h3 := find_ids (p := fun a => decide ((s.data a).ref = 0)) (q := fun e : Ipc.CEnt => e.ref == 0) hq
  rw [← h3]
  unfold ids
  rw [List.map_reverse]

/-- An entry is reused. -/
theorem getEvict_ok {m : Nat} (h : Inv hash s W own none) (hm : W.max = some m) {e : Ipc.CEnt} (he : e ∈ W.lru) {c : Addr}
    {key : Key} {hid : Nat} (hc : W.prov c = some key.prov) (hk : ∀ f ∈ W.lru, f.id ≠ e.id → f.key ≠ key) {fuel : Nat}
    (hf : W.lru.length + 1 < fuel) :
    (getEvict hash fuel c e.id key hid s = .exit ∧ ¬ Rich 3 s) ∨
    ∃ s' own', getEvict hash fuel c e.id key hid s = .ok (.success, e.id, some (key, e.base, e.size)) s' ∧
      Inv hash s' { W with lru := ⟨e.id, key, hid, 1, 0, 0⟩ :: without W.lru e.id } own' none := by
  obtain ⟨c0, h1, -⟩ := h.owner e he
  obtain ⟨s1, s2, g2, e1, e2, e3, e4, e5, e6, e7, e8, e9, e10⟩ := remove_ok h hm he h1
  have hle : s1.live e.id = true := by rw [e2]; exact (h.live _).2 (.inl (mem_ids he))
  have htab : (s.data e.id).table = c0 := h.tables.mine c0 _ h1
  have hent := h.ent e he
  have hb : (s.data e.id).base = e.base := congrArg Ipc.CEnt.base hent
  have hsz : (s.data e.id).size = e.size := congrArg Ipc.CEnt.size hent
  have hlen : (without W.lru e.id).length ≤ W.lru.length := List.length_filter_le _ _
  have hrun : getEvict hash fuel c e.id key hid s =
      (do fill hash fuel c e.id key hid; pure (Res.success, e.id, some (key, e.base, e.size)))
        { s2 with glob := some ⟨m, W.lru.length - 1, g2⟩ } := by
    simp only [getEvict, bind_app, e1, getD_app hle, e3, htab, e4, getG_app e5, setG_app e5, hb, hsz]
  rw [hrun]
  rcases fill_ok (hid := hid) e10 hm hc (fun f hf' => by
      have := List.mem_filter.1 hf'
      exact hk f this.1 (by simpa using this.2)) (fuel := fuel) (by dsimp only; omega) with ⟨f1, f2⟩ | ⟨s', own', f1, f2⟩
  · refine .inl ⟨?_, fun hR => f2 (hR.mono e8 fun a ha => e9 a ha)⟩
    simp only [bind_app, f1]
  · refine .inr ⟨s', own', ?_, f2⟩
    simp only [bind_app, f1, pure_app]

/-- A new entry. -/
theorem getNew_ok {m : Nat} (h : Inv hash s W own none) (hm : W.max = some m) {c : Addr} {key : Key} {hid : Nat}
    (hc : W.prov c = some key.prov) (hk : ∀ f ∈ W.lru, f.key ≠ key) {fuel : Nat} (hf : W.lru.length + 1 < fuel) :
    (getNew hash fuel true c key hid s = .exit ∧ ¬ Rich 4 s) ∨
    (∃ s', getNew hash fuel true c key hid s = .ok (.oom, 0, none) s' ∧ Inv hash s' W own none ∧ ¬ Rich 4 s) ∨
    ∃ e s' own', getNew hash fuel true c key hid s = .ok (.success, e, none) s' ∧ e ≠ 0 ∧ e ∉ ids W.lru ∧
      Inv hash s' { W with lru := ⟨e, key, hid, 1, 0, 0⟩ :: W.lru } own' none := by
  rcases hostAlloc_cases s with ⟨e, h0, hfr, hh, hrun⟩ | ⟨hrun, hR⟩
  · have hfr' := fresh_iff.1 hfr
    have hen : e ∉ ids W.lru := fun h' => by
      have := (h.live e).2 (.inl h')
      rw [hfr'.1] at this
      cases this
    let s1 : St := { s with live := upd s.live e true, host := s.host.tail }
    have hI : Inv hash s1 W own (some e) := by
      refine ⟨h.glob, h.ent, h.hashv, fun a => ?_, fun a ha => ?_, h.caches, h.owned, h.owner, h.inj, h.keys, ?_⟩
      · show upd s.live e true a = true ↔ _
        by_cases hae : a = e
        · rw [hae, upd_same]
          simp
        · rw [upd_ne _ _ hae, h.live a]
          simp only [reduceCtorEq, or_false, Option.some.injEq]
          exact ⟨fun h' => .inl h', fun h' => h'.resolve_right fun e' => hae e'.symm⟩
      · cases ha
        exact ⟨hen, h0⟩
      · refine h.tables.congr (fun c' a ha => ?_) (fun _ _ _ _ _ _ => rfl) (fun _ _ _ => ⟨rfl, rfl⟩) rfl rfl rfl
        exact upd_ne _ _ fun e' => hen (e' ▸ h.owned c' a ha)
    have hrun' : getNew hash fuel true c key hid s = (do fill hash fuel c e key hid; pure (Res.success, e, none)) s1 := by
      simp only [getNew, bind_app, hrun, ite_app, if_neg h0, newEnt, Bool.true_eq_false, if_false, s1]
    rw [hrun']
    rcases fill_ok (hid := hid) hI hm hc hk hf with ⟨f1, f2⟩ | ⟨s', own', f1, f2⟩
    · refine .inl ⟨by simp only [bind_app, f1], fun hR => f2 (hR.next rfl fun a ha hf' => ?_)⟩
      rw [fresh_iff] at hf' ⊢
      refine ⟨?_, hf'.2⟩
      show upd s.live e true a = false
      rw [upd_ne _ _ (fun e' => ha (e'.trans hh))]
      exact hf'.1
    · exact .inr (.inr ⟨e, s', own', by simp only [bind_app, f1, pure_app], h0, hen, f2⟩)
  · refine .inr (.inl ⟨{ s with host := s.host.tail }, ?_, ?_, fun h' => hR (h'.less (by omega))⟩)
    · simp only [getNew, bind_app, hrun, ite_app, if_true, pure_app]
    · exact ⟨h.glob, h.ent, h.hashv, h.live, h.ext, h.caches, h.owned, h.owner, h.inj, h.keys,
        h.tables.congr (fun _ _ _ => rfl) (fun _ _ _ _ _ _ => rfl) (fun _ _ _ => ⟨rfl, rfl⟩) rfl rfl rfl⟩

/-- An entry is used again. -/
theorem getHit_ok {m : Nat} (h : Inv hash s W own none) (hm : W.max = some m) {e : Ipc.CEnt} (he : e ∈ W.lru) :
    ∃ s', getHit e.id s = .ok (.success, e.id, none) s' ∧
      Inv hash s' { W with lru := { e with ref := e.ref + 1 } :: without W.lru e.id } own none := by
  obtain ⟨g, hg, hd⟩ := h.globAt hm
  have hlive : ∀ a ∈ ids W.lru, s.live a = true := fun a ha => (h.live a).2 (.inl ha)
  have hle := hlive _ (mem_ids he)
  have he0 : e.id ≠ 0 := fun e' => h.zero (e' ▸ mem_ids he)
  obtain ⟨L, g2, e1, e2, e3⟩ := dlDelete_ok hg hd hlive (mem_ids he)
  have hids : ids (without W.lru e.id) = (ids W.lru).erase e.id := ids_without _ _ h.nodup
  obtain ⟨L2, k1, k2, k3⟩ := dlPrepend_ok (s := { s with link := L, glob := some ⟨m, W.lru.length, g2⟩ })
    (g := ⟨m, W.lru.length, g2⟩) rfl e2 (fun a ha => hlive a (List.mem_of_mem_erase ha)) hle
    (fun h' => by rw [h.nodup.mem_erase_iff] at h'; exact h'.1 rfl) he0
  have hpos : 0 < W.lru.length := List.length_pos_of_mem he
  let s' : St := { s with
    link := L2, glob := some ⟨m, W.lru.length, e.id⟩, data := upd s.data e.id { s.data e.id with ref := (s.data e.id).ref + 1 } }
  have hsub : ∀ f ∈ without W.lru e.id, f ∈ W.lru ∧ f.id ≠ e.id := fun f hf => by simpa using List.mem_filter.1 hf
  have hde : s'.data e.id = { s.data e.id with ref := (s.data e.id).ref + 1 } := upd_same _ _ _
  have hdo : ∀ a, a ≠ e.id → s'.data a = s.data a := fun a ha => upd_ne _ _ ha
  refine ⟨s', ?_, ?_⟩
  · simp only [getHit, bind_app, e1]
    rw [k1]
    simp only [getD, setD, hle, ↓reduceIte, pure_app, s']
  · have hmem : ∀ a, a ∈ e.id :: ids (without W.lru e.id) ↔ a ∈ ids W.lru := by
      intro a
      rw [hids, List.mem_cons, h.nodup.mem_erase_iff]
      constructor
      · rintro (rfl | h')
        · exact mem_ids he
        · exact h'.2
      · intro h'
        by_cases hae : a = e.id
        · exact .inl hae
        · exact .inr ⟨hae, h'⟩
    refine ⟨?_, ?_, ?_, ?_, nofun, h.caches, ?_, ?_, h.inj, ?_, ?_⟩
    · unfold GlobOk
      dsimp only
      rw [hm]
      refine ⟨e.id, ?_, ?_⟩
      · rw [List.length_cons, length_without h.nodup he]
        rw [show W.lru.length - 1 + 1 = W.lru.length by omega]
      · show Dl (L2 .next) (L2 .prev) e.id (e.id :: ids (without W.lru e.id))
        rw [hids]
        exact k2
    · intro f hf
      simp only [List.mem_cons] at hf
      rcases hf with rfl | hf
      · have := h.ent e he
        unfold entAt at this ⊢
        dsimp only
        rw [hde]
        dsimp only
        have h1 := congrArg Ipc.CEnt.key this
        have h2 := congrArg Ipc.CEnt.hid this
        have h3 := congrArg Ipc.CEnt.ref this
        have h4 := congrArg Ipc.CEnt.base this
        have h5 := congrArg Ipc.CEnt.size this
        dsimp only at h1 h2 h3 h4 h5
        rw [h1, h2, h3, h4, h5]
      · have := h.ent f (hsub f hf).1
        unfold entAt at this ⊢
        rw [hdo _ (hsub f hf).2]
        exact this
    · intro f hf
      simp only [List.mem_cons] at hf
      rcases hf with rfl | hf
      · dsimp only
        rw [hde]
        exact h.hashv e he
      · rw [hdo _ (hsub f hf).2]
        exact h.hashv f (hsub f hf).1
    · intro a
      show s.live a = true ↔ a ∈ e.id :: ids (without W.lru e.id) ∨ _
      rw [hmem a]
      exact h.live a
    · intro c a ha
      exact (hmem a).2 (h.owned c a ha)
    · intro f hf
      simp only [List.mem_cons] at hf
      rcases hf with rfl | hf
      · exact h.owner e he
      · exact h.owner f (hsub f hf).1
    · show (e.key :: (without W.lru e.id).map fun e => e.key).Nodup
      refine List.nodup_cons.2 ⟨fun h' => ?_, h.keys.sublist (List.filter_sublist.map _)⟩
      obtain ⟨f, hf, e'⟩ := List.mem_map.1 h'
      exact (hsub f hf).2 (congrArg Ipc.CEnt.id (key_inj h.keys (hsub f hf).1 he e'))
    · refine h.tables.congr (fun _ _ _ => rfl) (fun _ a _ k h1 h2 => ?_) (fun c' a _ => ?_) rfl rfl rfl
      · show L2 k a = _
        rw [k3 k h1 h2]
        show L k a = _
        rw [e3 k h1 h2]
      · by_cases hae : a = e.id
        · rw [hae, hde]
          exact ⟨rfl, rfl⟩
        · rw [hdo a hae]
          exact ⟨rfl, rfl⟩

/-- The eviction, as the abstract model has it. -/
def evicted (W : World) (e : Ipc.CEnt) (key : Key) (hid : Nat) : World :=
  { W with lru := ⟨e.id, key, hid, 1, 0, 0⟩ :: without W.lru e.id }

/-- What a get does. -/
theorem get_ok (h : Inv hash s W own none) {c : Addr} {key : Key} {hid : Nat} (hc : W.prov c = some key.prov) {fuel : Nat}
    (hf : W.lru.length + 1 < fuel) :
    (cacheGet hash fuel true c key hid s = .exit ∧ ¬ Rich 4 s) ∨
    ∃ r s' own', cacheGet hash fuel true c key hid s = .ok r s' ∧ Answered W (.get c key hid) ⟨r.1, r.2.1, r.2.2.toList⟩ ∧
      Inv hash s' (W.next (.get c key hid) ⟨r.1, r.2.1, r.2.2.toList⟩) own' none ∧ (Rich 4 s → r.1 = .success) := by
  obtain ⟨m, hm⟩ := h.max (c := c) (by rw [hc]; simp)
  have habs : W.abs = ⟨m, W.lru.length, W.lru, [], [], []⟩ := by
    unfold World.abs
    rw [hm]
    rfl
  obtain ⟨g, hg, hd⟩ := h.globAt hm
  have hreuse : ∀ e ∈ W.lru, (∀ f ∈ W.lru, f.id ≠ e.id → f.key ≠ key) →
      cacheGet hash fuel true c key hid s = getEvict hash fuel c e.id key hid s →
      (∀ i b, Ipc.get W.abs key hid i b = (Ipc.replace W.abs e key hid, .success, e.id)) →
      (∀ f ∈ W.lru, f.id = e.id → f.key ≠ key → Ipc.candidate W.lru = some f ∧ W.abs.max ≠ 0 ∧ W.abs.max ≤ W.lru.length) →
      (cacheGet hash fuel true c key hid s = .exit ∧ ¬ Rich 4 s) ∨
      ∃ r s' own', cacheGet hash fuel true c key hid s = .ok r s' ∧ Answered W (.get c key hid) ⟨r.1, r.2.1, r.2.2.toList⟩ ∧
        Inv hash s' (W.next (.get c key hid) ⟨r.1, r.2.1, r.2.2.toList⟩) own' none ∧ (Rich 4 s → r.1 = .success) := by
    intro e he hk hrun hget hcand
    have he0 : e.id ≠ 0 := fun e' => h.zero (e' ▸ mem_ids he)
    rw [hrun]
    rcases getEvict_ok (hid := hid) h hm he hc hk hf with ⟨e1, e2⟩ | ⟨s', own', e1, e2⟩
    · exact .inl ⟨e1, fun hR => e2 (hR.less (by omega))⟩
    · refine .inr ⟨_, s', own', e1, ?_, ?_, fun _ => rfl⟩
      · refine ⟨.inl rfl, ?_, ?_, fun _ => he0, fun f _ h1 h2 h3 => hcand f h1 h2 h3⟩
        · rw [hget]
          rfl
        · rw [hget, habs]
          rfl
      · unfold World.next
        dsimp only
        rw [hget, habs]
        exact e2
  have hnew : (∀ f ∈ W.lru, f.key ≠ key) →
      cacheGet hash fuel true c key hid s = getNew hash fuel true c key hid s →
      (∀ i b, Ipc.get W.abs key hid i b = Ipc.fresh W.abs key hid i b) →
      (cacheGet hash fuel true c key hid s = .exit ∧ ¬ Rich 4 s) ∨
      ∃ r s' own', cacheGet hash fuel true c key hid s = .ok r s' ∧ Answered W (.get c key hid) ⟨r.1, r.2.1, r.2.2.toList⟩ ∧
        Inv hash s' (W.next (.get c key hid) ⟨r.1, r.2.1, r.2.2.toList⟩) own' none ∧ (Rich 4 s → r.1 = .success) := by
    intro hk hrun hget
    rw [hrun]
    rcases getNew_ok (hid := hid) h hm hc hk hf with ⟨e1, e2⟩ | ⟨s', e1, e2, e3⟩ | ⟨e, s', own', e1, e2, e3, e4⟩
    · exact .inl ⟨e1, e2⟩
    · refine .inr ⟨_, s', own, e1, ?_, ?_, fun hR => absurd hR e3⟩
      · refine ⟨.inr rfl, ?_, ?_, nofun, nofun⟩
        · rw [hget, habs]
          rfl
        · rw [hget, habs]
          rfl
      · unfold World.next
        dsimp only
        rw [hget, habs]
        exact e2
    · refine .inr ⟨_, s', own', e1, ?_, ?_, fun _ => rfl⟩
      · refine ⟨.inl rfl, ?_, ?_, fun _ => e2, fun f _ h1 h2 _ => absurd (show e ∈ ids W.lru from (show f.id = e from h2) ▸ mem_ids h1) e3⟩
        · rw [hget, habs]
          rfl
        · rw [hget, habs]
          rfl
      · unfold World.next
        dsimp only
        rw [hget, habs]
        exact e4
  rcases find_ok h hc (fuel := fuel) (by omega) with ⟨e, he, hk, hfind⟩ | ⟨hfind, hk⟩
  · have he0 : e.id ≠ 0 := fun e' => h.zero (e' ▸ mem_ids he)
    have hle : s.live e.id = true := (h.live _).2 (.inl (mem_ids he))
    have hhid : (s.data e.id).hid = e.hid := congrArg Ipc.CEnt.hid (h.ent e he)
    have hlook : Ipc.lookup W.lru key = some e := by
      rw [← hk]
      exact lookup_some h.keys he
    by_cases hh : e.hid = hid
    · obtain ⟨s', e1, e2⟩ := getHit_ok h hm he
      have hget : ∀ i b, Ipc.get W.abs key hid i b =
          ({ W.abs with lru := { e with ref := e.ref + 1 } :: without W.lru e.id }, .success, e.id) := by
        intro i b
        rw [habs]
        unfold Ipc.get
        dsimp only
        rw [hlook]
        dsimp only
        rw [if_pos hh]
      refine .inr ⟨(.success, e.id, none), s', own, ?_, ?_, ?_, fun _ => rfl⟩
      · simp only [cacheGet, bind_app, hfind, ite_app, if_pos he0, getD_app hle, hhid, if_pos hh]
        exact e1
      · refine ⟨.inl rfl, ?_, ?_, fun _ => he0, fun f _ h1 h2 h3 => ?_⟩
        · rw [hget]
          rfl
        · rw [hget, habs]
          rfl
        · exact absurd ((congrArg Ipc.CEnt.key (h.uniq h1 he h2)).trans hk) h3
      · unfold World.next
        dsimp only
        rw [hget]
        exact e2
    · refine hreuse e he (fun f hf' h1 h2 => h1 (congrArg Ipc.CEnt.id (key_inj h.keys hf' he (h2.trans hk.symm)))) ?_ ?_ ?_
      · simp only [cacheGet, bind_app, hfind, ite_app, if_pos he0, getD_app hle, hhid, if_neg hh]
      · intro i b
        rw [habs]
        unfold Ipc.get
        dsimp only
        rw [hlook]
        dsimp only
        rw [if_neg hh]
      · intro f hf' h1 h2
        exact absurd ((congrArg Ipc.CEnt.key (h.uniq hf' he h1)).trans hk) h2
  · have hlook := lookup_none hk
    by_cases hfull : m ≠ 0 ∧ W.lru.length ≥ m
    · have hne : W.lru ≠ [] := fun e => by
        rw [e] at hfull
        have : ([] : List Ipc.CEnt).length = 0 := rfl
        omega
      obtain ⟨g', hg', hlg, hcand⟩ := cand_ok h hm hne (fuel := fuel) (by omega)
      cases hca : Ipc.candidate W.lru with
      | some e =>
        have he : e ∈ W.lru := by
          unfold Ipc.candidate at hca
          exact List.mem_reverse.1 (List.mem_of_find?_eq_some hca)
        have he0 : e.id ≠ 0 := fun e' => h.zero (e' ▸ mem_ids he)
        rw [hca] at hcand
        simp only [Option.map_some, Option.getD_some] at hcand
        refine hreuse e he (fun f hf' _ => hk f hf') ?_ ?_ ?_
        · simp only [cacheGet, bind_app, hfind, ite_app, ne_eq, not_true_eq_false, if_false, getG_app hg']
          rw [if_pos hfull]
          simp only [rd_app hlg, hcand]
          exact if_pos he0
        · intro i b
          rw [habs]
          unfold Ipc.get
          dsimp only
          rw [hlook]
          dsimp only
          rw [if_pos hfull, hca]
        · intro f hf' h1 _
          rw [h.uniq hf' he h1, habs]
          exact ⟨hca, hfull⟩
      | none =>
        rw [hca] at hcand
        simp only [Option.map_none, Option.getD_none] at hcand
        refine hnew hk ?_ ?_
        · simp only [cacheGet, bind_app, hfind, ite_app, ne_eq, not_true_eq_false, if_false, getG_app hg']
          rw [if_pos hfull]
          simp only [rd_app hlg, hcand, not_true_eq_false, if_false]
        · intro i b
          rw [habs]
          unfold Ipc.get
          dsimp only
          rw [hlook]
          dsimp only
          rw [if_pos hfull, hca]
    · refine hnew hk ?_ ?_
      · simp only [cacheGet, bind_app, hfind, ite_app, ne_eq, not_true_eq_false, if_false, getG_app hg]
        rw [if_neg hfull]
      · intro i b
        rw [habs]
        unfold Ipc.get
        dsimp only
        rw [hlook]
        dsimp only
        rw [if_neg hfull]

end Verif.IpcMem
