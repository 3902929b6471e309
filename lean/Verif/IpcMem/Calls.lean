import Verif.IpcMem.Get
import Verif.IpcMem.Fuel
/-!
# Lemmas for the cache of opened IPC handles: the other calls, and any history of calls
-/
namespace Verif.IpcMem

variable {hash : Key → Nat} {s : St} {W : World} {own : Addr → List Addr} {x : Option Addr}

/-- The answers of the base allocator are no part of the blocks. -/
theorem Inv.host (h : Inv hash s W own x) (l : List Addr) : Inv hash { s with host := l } W own x :=
  ⟨h.glob, h.ent, h.hashv, h.live, h.ext, h.caches, h.owned, h.owner, h.inj, h.keys,
    h.tables.congr (fun _ _ _ => rfl) (fun _ _ _ _ _ _ => rfl) (fun _ _ _ => ⟨rfl, rfl⟩) rfl rfl rfl⟩

/-- A word of an entry changes. -/
theorem update_ok (h : Inv hash s W own none) {e : Ipc.CEnt} (he : e ∈ W.lru) {d : Data} (h1 : d.key = e.key)
    (h2 : d.hashv = (s.data e.id).hashv) (h3 : d.table = (s.data e.id).table) {f : Ipc.CEnt → Ipc.CEnt}
    (hf : f e = ⟨e.id, d.key, d.hid, d.ref, d.base, d.size⟩) :
    Inv hash { s with data := upd s.data e.id d } { W with lru := W.lru.map fun y => if y.id = e.id then f y else y } own none := by
  have hy : ∀ y ∈ W.lru, (if y.id = e.id then f y else y) = entAt { s with data := upd s.data e.id d } y.id := by
    intro y hy
    by_cases hi : y.id = e.id
    · rw [if_pos hi, h.uniq hy he hi, hf]
      unfold entAt
      dsimp only
      rw [upd_same]
    · rw [if_neg hi]
      have := h.ent y hy
      unfold entAt at this ⊢
      dsimp only
      rw [upd_ne _ _ hi]
      exact this.symm
  have hid : ∀ y ∈ W.lru, (if y.id = e.id then f y else y).id = y.id := fun y h' => by rw [hy y h']; rfl
  have hkey : ∀ y ∈ W.lru, (if y.id = e.id then f y else y).key = y.key := by
    intro y h'
    by_cases hi : y.id = e.id
    · rw [if_pos hi, h.uniq h' he hi, hf]
      exact h1
    · rw [if_neg hi]
  have hids : ids (W.lru.map fun y => if y.id = e.id then f y else y) = ids W.lru := by
    unfold ids
    rw [List.map_map]
    exact List.map_congr_left hid
  have hkeys : ((W.lru.map fun y => if y.id = e.id then f y else y).map fun y => y.key) = W.lru.map fun y => y.key := by
    rw [List.map_map]
    exact List.map_congr_left hkey
  refine ⟨?_, ?_, ?_, ?_, nofun, h.caches, ?_, ?_, h.inj, ?_, ?_⟩
  · have := h.glob
    unfold GlobOk at this ⊢
    dsimp only
    cases hm : W.max with
    | none =>
      rw [hm] at this
      rw [this.2.1] at he
      cases he
    | some m =>
      rw [hm] at this
      dsimp only at this ⊢
      rw [hids, List.length_map]
      exact this
  · intro z hz
    obtain ⟨y, hy1, rfl⟩ := List.mem_map.1 hz
    rw [hid y hy1, hy y hy1]
  · intro z hz
    obtain ⟨y, hy1, rfl⟩ := List.mem_map.1 hz
    dsimp only
    rw [hid y hy1, hkey y hy1]
    by_cases hi : y.id = e.id
    · rw [hi, upd_same, h2, h.uniq hy1 he hi]
      exact h.hashv e he
    · rw [upd_ne _ _ hi]
      exact h.hashv y hy1
  · intro a
    dsimp only
    rw [hids]
    exact h.live a
  · intro c a ha
    dsimp only
    rw [hids]
    exact h.owned c a ha
  · intro z hz
    obtain ⟨y, hy1, rfl⟩ := List.mem_map.1 hz
    dsimp only
    rw [hid y hy1, hkey y hy1]
    exact h.owner y hy1
  · dsimp only
    rw [hkeys]
    exact h.keys
  · refine h.tables.congr (fun _ _ _ => rfl) (fun _ _ _ _ _ _ => rfl) (fun c a _ => ?_) rfl rfl rfl
    by_cases hi : a = e.id
    · dsimp only
      rw [hi, upd_same]
      exact ⟨h2, h3⟩
    · dsimp only
      rw [upd_ne _ _ hi]
      exact ⟨rfl, rfl⟩

/-- The entry that is in no list is freed. -/
theorem free_ok {e : Addr} (h : Inv hash s W own (some e)) : Inv hash { s with live := upd s.live e false } W own none := by
  have hen := (h.ext e rfl).1
  refine ⟨h.glob, h.ent, h.hashv, fun a => ?_, nofun, h.caches, h.owned, h.owner, h.inj, h.keys, ?_⟩
  · dsimp only
    by_cases hae : a = e
    · rw [hae, upd_same]
      simp [hen]
    · rw [upd_ne _ _ hae, h.live a]
      simp only [Option.some.injEq, reduceCtorEq, or_false]
      exact ⟨fun h' => h'.resolve_right fun e' => hae e'.symm, .inl⟩
  · refine h.tables.congr (fun c a ha => ?_) (fun _ _ _ _ _ _ => rfl) (fun _ _ _ => ⟨rfl, rfl⟩) rfl rfl rfl
    exact upd_ne _ _ fun e' => hen (e' ▸ h.owned c a ha)

/-- The next item of the table. -/
theorem next_own (h : Inv hash s W own x) {c : Addr} {l : List Addr} (hl : own c = l) :
    (if l.headD 0 ≠ 0 then rd .aNext (l.headD 0) else pure 0) s = .ok (l.tail.headD 0) s := by
  cases l with
  | nil => rfl
  | cons y k =>
    obtain ⟨T, t, r, B, hok⟩ := h.tables.tab c (by rw [hl]; simp)
    rw [hl] at hok
    have hy : y ≠ 0 := fun e => hok.zero (by simp [e])
    rw [List.headD_cons, ite_app, if_pos hy, rd_app (hok.live y (by simp)), hok.seg.1.2]
    rfl

/-- The loop over the entries of a cache that is destroyed. -/
theorem destroyLoop_ok {m p : Nat} {c : Addr} : ∀ (l : List Addr) {s : St} {W : World} {own : Addr → List Addr},
    Inv hash s W own none → W.max = some m → own c = l → W.prov c = some p → ∀ fuel, l.length < fuel →
    ∃ s' own', destroyLoop c fuel (l.headD 0) (l.tail.headD 0) s =
        .ok (l.map fun a => ((s.data a).key, (s.data a).base, (s.data a).size)) s' ∧
      Inv hash s' { W with lru := W.lru.filter fun e => e.key.prov ≠ p } own' none ∧ own' c = [] := by
  intro l
  induction l with
  | nil =>
    intro s W own h hm hl hp fuel hf
    obtain ⟨f, rfl⟩ : ∃ f, fuel = f + 1 := ⟨fuel - 1, by omega⟩
    refine ⟨s, own, rfl, ?_, hl⟩
    have : W.lru.filter (fun e => e.key.prov ≠ p) = W.lru := by
      refine List.filter_eq_self.2 fun e he => ?_
      simp only [decide_eq_true_eq]
      intro hk
      obtain ⟨c', h1, h2⟩ := h.owner e he
      rw [hk] at h2
      rw [h.inj c' c _ h2 hp, hl] at h1
      cases h1
    rw [this]
    exact h
  | cons a k ih =>
    intro s W own h hm hl hp fuel hf
    obtain ⟨f, rfl⟩ : ∃ f, fuel = f + 1 := ⟨fuel - 1, by omega⟩
    have hac : a ∈ own c := by rw [hl]; simp
    have hai := h.owned c a hac
    have he := h.mem hai
    have ha0 : a ≠ 0 := fun e => h.zero (e ▸ hai)
    obtain ⟨s1, s2, g2, e1, e2, e3, e4, e5, e6, e7, e8, e9, e10⟩ := remove_ok h hm he (c := c) hac
    have hpa : W.prov c = some (s.data a).key.prov := h.prov_of_own he hac
    have hka : (s.data a).key.prov = p := by
      rw [hp] at hpa
      exact (Option.some.inj hpa).symm
    change dlDelete a s = .ok () s1 at e1
    change hashDel c a s1 = .ok () s2 at e4
    have hle2 : s2.live a = true := by rw [e6]; exact (h.live a).2 (.inl hai)
    have hI := free_ok e10
    let s3 : St := { s2 with glob := some ⟨m, W.lru.length - 1, g2⟩, live := upd s2.live a false }
    have hI : Inv hash s3 { W with lru := without W.lru a } (upd own c ((own c).erase a)) none := hI
    have hown : upd own c ((own c).erase a) c = k := by
      rw [upd_same, hl, List.erase_cons_head]
    have hnx := next_own hI hown
    obtain ⟨s', own', f1, f2, f3⟩ := ih hI hm hown hp f (by simp at hf; omega)
    refine ⟨s', own', ?_, ?_, f3⟩
    · rw [List.headD_cons, List.tail_cons, destroyLoop, if_neg ha0]
      have hnx' : (if k.headD 0 ≠ 0 then rd .aNext (k.headD 0) else pure 0) s3 = .ok (k.tail.headD 0) s3 := hnx
      have hjp : (do let tmp' ← if k.headD 0 ≠ 0 then rd .aNext (k.headD 0) else pure 0
                     let l ← destroyLoop c f (k.headD 0) tmp'
                     pure (((s.data a).key, (s.data a).base, (s.data a).size) :: l)) s3 =
          .ok ((a :: k).map fun a => ((s.data a).key, (s.data a).base, (s.data a).size)) s' := by
        have f1' : destroyLoop c f (k.headD 0) (k.tail.headD 0) s3 =
            .ok (k.map fun a => ((s.data a).key, (s.data a).base, (s.data a).size)) s' := by
          rw [f1]
          show Out.ok (k.map fun a => ((s2.data a).key, (s2.data a).base, (s2.data a).size)) s' = _
          rw [e7]
        by_cases hk0 : k.headD 0 ≠ 0
        · rw [if_pos hk0] at hnx'
          simp only [if_pos hk0, bind_app, hnx', f1', pure_app, List.map_cons]
        · rw [if_neg hk0] at hnx'
          simp only [if_neg hk0, bind_app, hnx', f1', pure_app, List.map_cons]
      rw [← hjp]
      simp only [bind_app, e1, e4, getG_app e5, setG_app e5, getD, freeEnt, hle2, ↓reduceIte, e7, s3]
    · have : (without W.lru a).filter (fun e => e.key.prov ≠ p) = W.lru.filter fun e => e.key.prov ≠ p := by
        rw [List.filter_filter]
        refine List.filter_congr fun f hf' => ?_
        by_cases hfa : f.id = a
        · have : f = entAt s a := h.uniq hf' he hfa
          rw [this]
          show (decide ((s.data a).key.prov ≠ p) && _) = decide ((s.data a).key.prov ≠ p)
          rw [hka]
          simp
        · simp [hfa]
      rw [← this]
      exact f2

/-- A cache is destroyed. -/
theorem destroy_ok {p : Nat} (h : Inv hash s W own none) {c : Addr} (hc : W.prov c = some p) {fuel : Nat} (hf : W.lru.length < fuel) :
    ∃ l s' own', cacheDestroy fuel c s = .ok l s' ∧
      List.Perm l ((W.lru.filter fun e => e.key.prov = p).map fun e => (e.key, e.base, e.size)) ∧
      Inv hash s' { W with prov := fun c' => if c' = c then none else W.prov c', lru := W.lru.filter fun e => e.key.prov ≠ p } own' none := by
  obtain ⟨m, hm⟩ := h.max (c := c) (by rw [hc]; simp)
  have hcc : s.caches c = some ((own c).headD 0) := h.cacheOf (by rw [hc]; simp)
  have hlen := h.own_length c
  obtain ⟨s1, own1, e1, e2, e3⟩ := destroyLoop_ok (own c) h hm rfl hc fuel (by omega)
  have hc1 : s1.caches c = some 0 := by
    have := e2.cacheOf (c := c) (by dsimp only; rw [hc]; simp)
    rw [e3] at this
    exact this
  let g : Addr → Key × Nat × Nat := fun a => ((s.data a).key, (s.data a).base, (s.data a).size)
  refine ⟨(own c).map g, { s1 with caches := upd s1.caches c none }, own1, ?_, ?_, ?_⟩
  · have hnx := next_own h (c := c) rfl
    unfold cacheDestroy
    rw [bind_app, getHead_app hcc]
    have hjp : (do let tmp ← if (own c).headD 0 ≠ 0 then rd .aNext ((own c).headD 0) else pure 0
                   let l ← destroyLoop c fuel ((own c).headD 0) tmp
                   hashClear c
                   freeCache c
                   pure l) s = .ok ((own c).map g) { s1 with caches := upd s1.caches c none } := by
      by_cases hk0 : (own c).headD 0 ≠ 0
      · rw [if_pos hk0] at hnx
        simp only [if_pos hk0, bind_app, hnx, e1, hashClear, getHead_app hc1, ite_app, ne_eq, not_true_eq_false, if_false, pure_app,
          freeCache, hc1, g]
      · rw [if_neg hk0] at hnx
        simp only [if_neg hk0, bind_app, hnx, e1, hashClear, getHead_app hc1, ite_app, ne_eq, not_true_eq_false, if_false, pure_app,
          freeCache, hc1, g]
    rw [← hjp]
  · have h1 : ((W.lru.filter fun e => e.key.prov = p).map fun e => (e.key, e.base, e.size)) =
        (ids (W.lru.filter fun e => e.key.prov = p)).map g := by
      unfold ids
      rw [List.map_map]
      refine List.map_congr_left fun e he => ?_
      have := h.ent e (List.mem_filter.1 he).1
      have a1 := congrArg Ipc.CEnt.key this
      have a2 := congrArg Ipc.CEnt.base this
      have a3 := congrArg Ipc.CEnt.size this
      show _ = ((s.data e.id).key, (s.data e.id).base, (s.data e.id).size)
      rw [← a1, ← a2, ← a3]
      rfl
    rw [h1]
    refine List.Perm.map g ((List.perm_ext_iff_of_nodup (h.own_nodup c) (h.nodup.sublist (List.filter_sublist.map _))).2 fun a => ?_)
    constructor
    · intro ha
      have he := h.mem (h.owned c a ha)
      have hp := h.prov_of_own he ha
      rw [hc] at hp
      refine List.mem_map.2 ⟨entAt s a, List.mem_filter.2 ⟨he, ?_⟩, rfl⟩
      simpa using (Option.some.inj hp).symm
    · intro ha
      obtain ⟨e, he, rfl⟩ := List.mem_map.1 ha
      obtain ⟨he1, he2⟩ := List.mem_filter.1 he
      simp only [decide_eq_true_eq] at he2
      obtain ⟨c', h2, h3⟩ := h.owner e he1
      rw [he2] at h3
      rw [h.inj c' c _ h3 hc] at h2
      exact h2
  · refine ⟨?_, e2.ent, e2.hashv, e2.live, e2.ext, fun c' => ?_, e2.owned, ?_, ?_, e2.keys, ?_⟩
    · have := e2.glob
      unfold GlobOk at this ⊢
      dsimp only at this ⊢
      rw [hm] at this ⊢
      exact this
    · dsimp only
      by_cases hx : c' = c
      · rw [hx, upd_same]
        simp
      · rw [upd_ne _ _ hx, if_neg hx]
        exact e2.caches c'
    · intro e he
      obtain ⟨c', h1, h2⟩ := e2.owner e he
      refine ⟨c', h1, ?_⟩
      dsimp only
      rw [if_neg]
      · exact h2
      · rintro rfl
        rw [e3] at h1
        cases h1
    · intro c1 c2 q h1 h2
      dsimp only at h1 h2
      by_cases hx : c1 = c
      · rw [if_pos hx] at h1
        cases h1
      · by_cases hy : c2 = c
        · rw [if_pos hy] at h2
          cases h2
        · rw [if_neg hx] at h1
          rw [if_neg hy] at h2
          exact h.inj c1 c2 q h1 h2
    · have hT := e2.tables
      refine ⟨?_, ?_, fun c' hc' => ?_, hT.mine, hT.sep, hT.sepA, hT.tabOnly, hT.arrOnly⟩
      · intro c' v hv
        dsimp only at hv
        by_cases hx : c' = c
        · rw [hx, upd_same] at hv
          cases hv
        · rw [upd_ne _ _ hx] at hv
          exact hT.head c' v hv
      · intro c' hv
        dsimp only at hv
        by_cases hx : c' = c
        · rw [hx]
          exact e3
        · rw [upd_ne _ _ hx] at hv
          exact hT.none c' hv
      · obtain ⟨T, t, r, B, e⟩ := hT.tab c' hc'
        exact ⟨T, t, r, B, e.congr (fun _ _ => rfl) (fun _ _ _ _ _ => rfl) (fun _ _ => rfl) rfl rfl⟩

/-- A cache is made. -/
theorem create_ok {p : Nat} (h : Inv hash s W own none) (hm : W.max ≠ none) (hp : ∀ c, W.prov c ≠ some p) :
    (cacheCreate s = .ok 0 { s with host := s.host.tail } ∧ ¬ Rich 1 s) ∨
    ∃ c s', c ≠ 0 ∧ W.prov c = none ∧ cacheCreate s = .ok c s' ∧
      Inv hash s' { W with prov := fun c' => if c' = c then some p else W.prov c' } own none := by
  obtain ⟨m, hm⟩ := Option.ne_none_iff_exists'.1 hm
  obtain ⟨g, hg, hd⟩ := h.globAt hm
  rcases hostAlloc_cases s with ⟨c, h0, hfr, hh, hrun⟩ | ⟨hrun, hR⟩
  · have hfr' := fresh_iff.1 hfr
    have hpc := (h.caches c).1 hfr'.2.2.2
    refine .inr ⟨c, { s with host := s.host.tail, caches := upd s.caches c (some 0) }, h0, hpc, ?_, ?_⟩
    · simp only [cacheCreate, bind_app, hrun, ite_app, if_neg h0, getG, hg, newCache, pure_app]
    · refine ⟨?_, h.ent, h.hashv, h.live, h.ext, fun c' => ?_, h.owned, ?_, ?_, h.keys, ?_⟩
      · have := h.glob
        unfold GlobOk at this ⊢
        dsimp only at this ⊢
        rw [hm] at this ⊢
        exact this
      · dsimp only
        by_cases hx : c' = c
        · rw [hx, upd_same]
          simp
        · rw [upd_ne _ _ hx, if_neg hx]
          exact h.caches c'
      · intro e he
        obtain ⟨c', h1, h2⟩ := h.owner e he
        refine ⟨c', h1, ?_⟩
        dsimp only
        rw [if_neg]
        · exact h2
        · rintro rfl
          rw [hpc] at h2
          cases h2
      · intro c1 c2 q h1 h2
        dsimp only at h1 h2
        by_cases hx : c1 = c <;> by_cases hy : c2 = c
        · rw [hx, hy]
        · rw [if_pos hx] at h1
          rw [if_neg hy] at h2
          cases h1
          exact absurd h2 (hp c2)
        · rw [if_neg hx] at h1
          rw [if_pos hy] at h2
          cases h2
          exact absurd h1 (hp c1)
        · rw [if_neg hx] at h1
          rw [if_neg hy] at h2
          exact h.inj c1 c2 q h1 h2
      · have hT := h.tables
        refine ⟨?_, ?_, fun c' hc' => ?_, hT.mine, hT.sep, hT.sepA, hT.tabOnly, hT.arrOnly⟩
        · intro c' v hv
          dsimp only at hv
          by_cases hx : c' = c
          · rw [hx, upd_same] at hv
            rw [hx, hT.none c hfr'.2.2.2]
            exact (Option.some.inj hv).symm
          · rw [upd_ne _ _ hx] at hv
            exact hT.head c' v hv
        · intro c' hv
          dsimp only at hv
          by_cases hx : c' = c
          · rw [hx, upd_same] at hv
            cases hv
          · rw [upd_ne _ _ hx] at hv
            exact hT.none c' hv
        · obtain ⟨T, t, r, B, e⟩ := hT.tab c' hc'
          exact ⟨T, t, r, B, e.congr (fun _ _ => rfl) (fun _ _ _ _ _ => rfl) (fun _ _ => rfl) rfl rfl⟩
  · refine .inl ⟨?_, hR⟩
    simp only [cacheCreate, bind_app, hrun, ite_app, if_true, pure_app]

/-- Every legal call has a result, and afterwards the blocks are again what the users know; the process ends only in a get, for
lack of memory. -/
theorem step_ok (h : Inv hash s W own none) {op : Op} (hl : Legal W op) {a : Answers} (ha : a.mutex = true) {fuel : Nat}
    (hf : W.lru.length + 1 < fuel) :
    (step hash fuel s op a = .exit ∧ (∃ c key hid, op = .get c key hid) ∧ ¬ Rich 4 { s with host := a.host }) ∨
    ∃ out s' own', step hash fuel s op a = .ok out s' ∧ Answered W op out ∧ Inv hash s' (W.next op out) own' none ∧
      (Rich 4 { s with host := a.host } → out.res = .success) := by
  have h := h.host a.host
  unfold step
  generalize { s with host := a.host } = s at h
  rw [ha]
  cases op with
  | init k =>
    refine .inr ⟨⟨.success, 0, []⟩, { s with glob := some ⟨k, 0, 0⟩ }, own, rfl, rfl, ?_, fun _ => rfl⟩
    have hg := h.glob
    unfold GlobOk at hg
    rw [show W.max = none from hl] at hg
    refine ⟨?_, h.ent, h.hashv, h.live, h.ext, h.caches, h.owned, h.owner, h.inj, h.keys, ?_⟩
    · unfold GlobOk World.next
      dsimp only
      rw [hg.2.1]
      exact ⟨0, rfl, rfl, trivial, List.nodup_nil, List.not_mem_nil⟩
    · exact h.tables.congr (fun _ _ _ => rfl) (fun _ _ _ _ _ _ => rfl) (fun _ _ _ => ⟨rfl, rfl⟩) rfl rfl rfl
  | tearDown =>
    obtain ⟨hm, hp⟩ := hl
    obtain ⟨m, hm⟩ := Option.ne_none_iff_exists'.1 hm
    obtain ⟨g, hg, hd⟩ := h.globAt hm
    have hempty : W.lru = [] := by
      cases hW : W.lru with
      | nil => rfl
      | cons e k =>
        obtain ⟨c, -, h2⟩ := h.owner e (by rw [hW]; simp)
        rw [hp c] at h2
        cases h2
    have hg0 : g = 0 := by
      rw [hd.head, hempty]
      rfl
    refine .inr ⟨⟨.success, 0, []⟩, { s with glob := none }, own, ?_, rfl, ?_, fun _ => rfl⟩
    · obtain ⟨f, rfl⟩ : ∃ f, fuel = f + 1 := ⟨fuel - 1, by omega⟩
      simp only [call, globalTearDown, bind_app, getG_app hg, hg0, dlCount, if_true, pure_app, hempty, List.length_nil]
      rfl
    · refine ⟨?_, h.ent, h.hashv, h.live, h.ext, h.caches, h.owned, h.owner, h.inj, h.keys, ?_⟩
      · unfold GlobOk World.next
        exact ⟨rfl, hempty, hp⟩
      · exact h.tables.congr (fun _ _ _ => rfl) (fun _ _ _ _ _ _ => rfl) (fun _ _ _ => ⟨rfl, rfl⟩) rfl rfl rfl
  | create p =>
    rcases create_ok h hl.1 hl.2 with ⟨e1, e2⟩ | ⟨c, s', e1, e2, e3, e4⟩
    · refine .inr ⟨⟨.oom, 0, []⟩, { s with host := s.host.tail }, own, ?_, .inl rfl, h.host _, fun hR => absurd (hR.less (by omega)) e2⟩
      simp only [call, bind_app, e1, if_true, pure_app]
    · refine .inr ⟨⟨.success, c, []⟩, s', own, ?_, .inr ⟨rfl, e1, e2, rfl⟩, ?_, fun _ => rfl⟩
      · simp only [call, bind_app, e3, if_neg e1, pure_app]
      · unfold World.next
        simp only [if_true]
        exact e4
  | destroy c =>
    obtain ⟨p, hp⟩ := Option.ne_none_iff_exists'.1 hl
    obtain ⟨l, s', own', e1, e2, e3⟩ := destroy_ok h hp (fuel := fuel) (by omega)
    refine .inr ⟨⟨.success, 0, l⟩, s', own', ?_, ⟨rfl, rfl, ?_⟩, ?_, fun _ => rfl⟩
    · simp only [call, bind_app, e1, pure_app]
    · rw [hp]
      simpa using e2
    · unfold World.next
      dsimp only
      rw [hp]
      simpa using e3
  | get c key hid =>
    rcases get_ok (hid := hid) h hl hf with ⟨e1, e2⟩ | ⟨r, s', own', e1, e2, e3, e4⟩
    · refine .inl ⟨?_, ⟨c, key, hid, rfl⟩, e2⟩
      simp only [call, bind_app, e1]
    · refine .inr ⟨_, s', own', ?_, e2, e3, e4⟩
      simp only [call, bind_app, e1, pure_app]
  | release e =>
    obtain ⟨y, hy, rfl, hr⟩ := hl
    have hle : s.live y.id = true := (h.live _).2 (.inl (mem_ids hy))
    have href : (s.data y.id).ref = y.ref := congrArg Ipc.CEnt.ref (h.ent y hy)
    have hE := h.ent y hy
    refine .inr ⟨⟨.success, 0, []⟩, { s with data := upd s.data y.id { s.data y.id with ref := (s.data y.id).ref - 1 } }, own, ?_, rfl, ?_,
      fun _ => rfl⟩
    · simp only [call, release, bind_app, getD, setD, hle, ↓reduceIte, pure_app, href, if_neg hr]
    · unfold World.next
      refine update_ok (d := { s.data y.id with ref := (s.data y.id).ref - 1 }) h hy (congrArg Ipc.CEnt.key hE) rfl rfl
        (f := fun x => { x with ref := x.ref - 1 }) ?_
      conv_lhs => rw [← hE]
      rfl
  | map e b n =>
    obtain ⟨y, hy, rfl, hr⟩ := hl
    have hle : s.live y.id = true := (h.live _).2 (.inl (mem_ids hy))
    have hE := h.ent y hy
    refine .inr ⟨⟨.success, 0, []⟩, { s with data := upd s.data y.id { s.data y.id with base := b, size := n } }, own, ?_, rfl, ?_,
      fun _ => rfl⟩
    · simp only [call, setMapped, bind_app, getD, setD, hle, ↓reduceIte, pure_app]
    · unfold World.next
      refine update_ok (d := { s.data y.id with base := b, size := n }) h hy (congrArg Ipc.CEnt.key hE) rfl rfl
        (f := fun x => { x with base := b, size := n }) ?_
      conv_lhs => rw [← hE]
      rfl

theorem inv_init : Inv hash St.init World.empty (fun _ => []) none := by
  refine ⟨⟨rfl, rfl, fun _ => rfl⟩, nofun, nofun, fun a => ?_, nofun, fun _ => by simp [St.init, World.empty], nofun, nofun, nofun,
    List.nodup_nil, ⟨?_, ?_, ?_, nofun, nofun, nofun, nofun, nofun⟩⟩
  · simp [St.init, World.empty, ids]
  · intro c v hv
    cases hv
  · exact fun _ _ => rfl
  · intro c h'
    exact absurd rfl h'

/-- A call that is defined does the same when the mutex can be made. -/
theorem mutex_ext {f : Nat} {m : Bool} (op : Op) : Ext (call hash f m op) (call hash f true op) := by
  cases op with
  | get c key hid =>
    have h2 : Ext (getNew hash f m c key hid) (getNew hash f true c key hid) := by
      unfold getNew
      refine .bind (.refl _) fun _ => .ite (.refl _) (.bind (.refl _) fun _ => ?_)
      cases m with
      | true => exact .refl _
      | false => exact ext_undef _
    unfold call cacheGet
    exact .bind (.bind (.refl _) fun _ => .ite (.refl _) (.bind (.refl _) fun _ => .ite
      (.bind (.refl _) fun _ => .bind (.refl _) fun _ => .ite (.refl _) h2) h2)) fun _ => .refl _
  | _ => exact .refl _

theorem step_mutex {op : Op} {a : Answers} {f : Nat} (hu : step hash f s op a ≠ .undef) :
    step hash f s op { a with mutex := true } = step hash f s op a :=
  (mutex_ext op _).resolve_left hu

/-- A call with `fuel` that is defined does the same with more. -/
theorem step_more {op : Op} {a : Answers} {f g : Nat} (h : f ≤ g) (hu : step hash f s op a ≠ .undef) :
    step hash g s op a = step hash f s op a :=
  (call_ext h op _).resolve_left hu

/-- What holds after any history. -/
theorem reach_inv {W : World} (h : Reach hash s W) : ∃ own, Inv hash s W own none := by
  induction h with
  | init => exact ⟨_, inv_init⟩
  | @step s s' W op a out _ hl hr ih =>
    obtain ⟨own, hI⟩ := ih
    obtain ⟨n, hn⟩ := hr
    have h1 := hn (max n (W.lru.length + 2)) (Nat.le_max_left _ _)
    have h2 := step_mutex (s := s) (hash := hash) (op := op) (a := a) (f := max n (W.lru.length + 2)) (by rw [h1]; nofun)
    rw [h1] at h2
    rcases step_ok hI hl (a := { a with mutex := true }) rfl (fuel := max n (W.lru.length + 2)) (by
      have := Nat.le_max_right n (W.lru.length + 2)
      omega) with ⟨e1, -⟩ | ⟨out', s1, own', e1, -, e3, -⟩
    · rw [h2] at e1
      cases e1
    · rw [h2] at e1
      cases e1
      exact ⟨own', e3⟩

end Verif.IpcMem
