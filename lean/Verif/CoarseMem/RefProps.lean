import Verif.CoarseMem.Hist
/-!
# The coarse allocator, pointer by pointer, and the model with lists: C77
-/
namespace Verif.CoarseMem
open Verif.Coarse (Res Cfg)
open Verif.Coarse.Spec (Region Has HasAny Disjoint bytes)

/-- C77. The calls do to the memory what they do to the lists: there is a relation between memories and pairs of lists, in which the lists
show the memory, and every call, with whatever refusals of the base allocator, returns the same result and the same address on both sides and keeps
the relation. When nothing is refused, nothing is refused in the model with lists; when the base allocator gives zeroed memory, so it
does there. Left out: an allocation when there is an empty list (`C76_emptyList_violated`). -/
theorem C77_refines (cfg : Cfg) : ∃ R : St → Coarse.St → Prop, R St.init Coarse.init ∧ (∀ s st, R s st → Shows s st) ∧
    ∀ {u : User} {s : St} {held : List Nat} {st : Coarse.St} {op : Op} {env : Env} {host : List (Addr × Bool)} {r : Ret} {s' : St},
      Reach cfg u s held → R s st → Allowed u held op host → (((∃ size a, op = .alloc size a) ∨ ∃ size, op = .addUpstream size) → NoEmpty s) →
      Runs cfg s op env host r s' →
      ∃ (ho ho2 : Coarse.Site → Bool) (g g2 : Bool) (o : Coarse.Out), (s'.refused = false → ∀ x, ho x = true ∧ ho2 x = true) ∧
        ((∀ x ∈ host, x.2 = false) → g = false) ∧ o.res = r.res ∧ o.ptr = r.ptr ∧
        ∃ st', cstep cfg (cenv env ho g) (cenv env ho2 g2) st op = (st', o) ∧ R s' st' := by
  refine ⟨fun s st => ∃ A E, Inv s A E ∧ st = abs s A E, ?_, ?_, ?_⟩
  · obtain ⟨⟨A, E, hI⟩, -, -⟩ := init_good .zeroed
    refine ⟨A, E, hI, ?_⟩
    have hA : (abs St.init A E).blocks = [] := by
      refine List.eq_nil_iff_forall_not_mem.2 fun x hx => ?_
      obtain ⟨b, B, h1, -⟩ := (hI.shows.blocks x).1 hx
      cases h1
    have hE : (abs St.init A E).free = [] := by
      refine List.eq_nil_iff_forall_not_mem.2 fun x hx => ?_
      obtain ⟨b, B, h1, -⟩ := (hI.shows.free x).1 hx
      cases h1
    unfold abs at hA hE ⊢
    dsimp only at hA hE
    rw [hA, hE]
    rfl
  · rintro s st ⟨A, E, hI, rfl⟩
    exact hI.shows
  · rintro u s held st op env host r s' hr ⟨A, E, hI, rfl⟩ ha hN hrun
    obtain ⟨-, hH, hC⟩ := reach_good hr
    have hs : Safe s op := by
      intro p hp hp0 b B hb hd hu
      cases u with
      | zeroed => exact hC rfl b B hb hu
      | careful =>
        have hin : p ∈ held := by
          rcases hp with ⟨n, rfl⟩ | ⟨t, f, rfl⟩ <;> exact (show p = 0 ∨ p ∈ held from ha).resolve_left hp0
        obtain ⟨c, C, c1, c2, c3, c4⟩ := hH p hin
        have := hI.data_inj hb c1 (hd.trans c2.symm)
        rw [this, c1] at hb
        cases hb
        exact c4
    obtain ⟨r', s'', A', E', g1, g2, -, ho, g, ho2, g2', k1, k2, k3, k4, k5⟩ := call_sim (cfg := cfg) (env := env) (host := host) hI hs hN
    obtain ⟨rfl, rfl⟩ := Ev.unique (m := run cfg _ _) hrun g1
    refine ⟨ho, ho2, g, g2', (cstep cfg (cenv env ho g) (cenv env ho2 g2') (abs s A E) op).2, k1, k2, k4, k5, (cstep cfg (cenv env ho g) (cenv env ho2 g2') (abs s A E) op).1, rfl, A', E', g2, k3⟩

variable {cfg : Cfg} {k : Nat} {P : Env → Prop} {s s' : St} {live grants : List Region}

/-- C77. As long as the base allocator refuses nothing, a history of calls (with any arguments) is a history of the model with lists, with
the same books, and the lists show the memory. -/
theorem C77_history (hp : cfg.page = 2 ^ k) (h : Hist cfg P s live grants) : ∃ st, Shows s st ∧ Coarse.Spec.Reach cfg Coarse.Spec.Any st live grants ∧
    ((∀ env, P env → MergeEnv env) → Coarse.Spec.Reach cfg Coarse.Spec.Mergeable st live grants) := by
  by_cases hm : ∀ env, P env → MergeEnv env
  · obtain ⟨A, E, hI, -, hR⟩ := hist_reach (Q := Coarse.Spec.Mergeable) hp (fun env ho g h => hm env h) h
    exact ⟨_, hI.shows, hR.any, fun _ => hR⟩
  · obtain ⟨A, E, hI, -, hR⟩ := hist_reach (Q := Coarse.Spec.Any) hp (fun _ _ _ _ => trivial) h
    exact ⟨_, hI.shows, hR, fun h => absurd h hm⟩

/-- C77. After such a history every call, with any arguments, is defined. -/
theorem C77_defined (hp : cfg.page = 2 ^ k) (h : Hist cfg P s live grants) (op : Op) (env : Env) (host : List (Addr × Bool)) :
    ∃ r s', Runs cfg s op env host r s' := by
  obtain ⟨A, E, hI, hr, hR⟩ := hist_reach (Q := Coarse.Spec.Any) hp (fun _ _ _ _ => trivial) h
  obtain ⟨r, s', -, -, h1, -⟩ := call_sim (cfg := cfg) (env := env) (host := host) hI (safe_of (clean_of hp hI hR) op) fun _ => hI.heads hr
  exact ⟨r, s', h1⟩

theorem live_iff (hp : cfg.page = 2 ^ k) {st : Coarse.St} (hs : Shows s st) (hR : Coarse.Spec.Reach cfg Coarse.Spec.Any st live grants) :
    ∀ x, x ∈ live ↔ ∃ b B, s.blk b = some B ∧ B.used = true ∧ x = (B.data, B.size) := by
  have hr := Coarse.reach_rel hp hR
  intro x
  rw [hr.live.mem_iff]
  constructor
  · intro hx
    obtain ⟨y, hy, h1, h2, h3⟩ := Coarse.mem_usedOf hx
    obtain ⟨b, B, hb, rfl⟩ := (hs.blocks y).1 hy
    exact ⟨b, B, hb, h1, Prod.ext h2.symm h3.symm⟩
  · rintro ⟨b, B, hb, hu, rfl⟩
    exact Coarse.usedOf_mem ((hs.blocks _).2 ⟨b, B, hb, rfl⟩) hu

/-- C77, for C01. After such a history the users' allocations share no byte and are made of the memory that was given. They are exactly the
blocks whose descriptors say that they are used, with their sizes. -/
theorem C77_live (hp : cfg.page = 2 ^ k) (h : Hist cfg P s live grants) : live.Pairwise Disjoint ∧
    (∀ x ∈ live, 0 < x.1 ∧ 0 < x.2 ∧ x.1 + x.2 ≤ 2 ^ 64 ∧ ∀ a, Has x a → HasAny grants a) ∧
    ∀ x, x ∈ live ↔ ∃ b B, s.blk b = some B ∧ B.used = true ∧ x = (B.data, B.size) := by
  obtain ⟨st, hs, hR, -⟩ := C77_history hp h
  obtain ⟨h1, h2⟩ := Coarse.C01_liveDisjoint hp hR
  exact ⟨h1, h2, live_iff hp hs hR⟩

/-- C77, for C02. An allocation that succeeds is of the size that was asked, aligned as asked and to pages, and apart from all others. -/
theorem C77_alloc (hp : cfg.page = 2 ^ k) (h : Hist cfg P s live grants) {size align : Nat} {env : Env} {host : List (Addr × Bool)} {r : Ret}
    (hw : WorldOk env (.alloc size align) host grants) (hP : P env) (hrun : Runs cfg s (.alloc size align) env host r s') (href : s'.refused = false)
    (hr : r.res = .success) : r.ptr % cfg.page = 0 ∧ (align ≠ 0 → r.ptr % align = 0) ∧ (∀ x ∈ live, Disjoint x (r.ptr, size)) ∧
      ∃ b B, s'.blk b = some B ∧ B.data = r.ptr ∧ B.size = size ∧ B.used = true := by
  obtain ⟨A, E, hI, hr0, hR⟩ := hist_reach (Q := Coarse.Spec.Any) hp (fun _ _ _ _ => trivial) h
  obtain ⟨r', s'', A', E', g1, g2, -, ho, g, ho2, g2', k1, k2, k3, k4, k5⟩ := call_sim (cfg := cfg) (op := .alloc size align) (env := env) (host := host) hI (safe_of (clean_of hp hI hR) _) fun _ => hI.heads hr0
  obtain ⟨rfl, rfl⟩ := Ev.unique (m := run cfg _ _) hrun g1
  have k1 := k1 href
  have he : Coarse.Spec.EnvOk (cenv env ho g) (.alloc size align) grants := envOk hw (fun x => (k1 x).1) k2 (fun _ _ e => by cases e; exact .inr rfl) (fun _ _ e => by cases e)
  have k4' : (Coarse.step cfg (cenv env ho g) (abs s A E) (.alloc size align)).2.res = r.res := k4
  have k5' : (Coarse.step cfg (cenv env ho g) (abs s A E) (.alloc size align)).2.ptr = r.ptr := k5
  have := Coarse.C02_alignedAndSized hp hR he (k4'.trans hr)
  dsimp only at this
  rw [k5'] at this
  refine ⟨this.1, this.2.1, this.2.2.2.1, ?_⟩
  have hl := (C77_live hp (Hist.step (op := .alloc size align) h hw hP hrun href)).2.2
  have hm : (r.ptr, size) ∈ liveAfter live (.alloc size align) r := by
    unfold liveAfter
    rw [if_pos hr]
    simp
  obtain ⟨b, B, b1, b2, b3⟩ := (hl _).1 hm
  exact ⟨b, B, b1, (congrArg Prod.fst b3).symm, (congrArg Prod.snd b3).symm, b2⟩

/-- C77, for C03. The sums are those of the books; the other numbers of the statistics count the descriptors (`C76_stats`), here those of the
allocations and the free ones. -/
theorem C77_stats (hp : cfg.page = 2 ^ k) (h : Hist cfg P s live grants) : s.allocSize = bytes grants ∧ s.usedSize = bytes live ∧
    ∃ free : List Region, free.Nodup ∧ (∀ x, x ∈ free ↔ ∃ b B, s.blk b = some B ∧ B.fl ≠ 0 ∧ x = (B.data, B.size)) ∧
      (∀ b B, s.blk b = some B → (B.used = true ↔ B.fl = 0)) ∧ (live ++ free).Pairwise Disjoint ∧
      (∀ a, HasAny grants a ↔ HasAny (live ++ free) a) ∧ bytes live + bytes free = bytes grants := by
  obtain ⟨st, hs, hR, -⟩ := C77_history hp h
  obtain ⟨a, u, n, f, e, h1, h2, -⟩ := Coarse.C03_statsExact hp hR
  unfold Coarse.stats at e
  cases e
  have hr := Coarse.reach_rel hp hR
  refine ⟨hs.alloc.symm.trans h1, hs.used.symm.trans h2, Coarse.freeRanges st, ?_, fun x => ?_, fun b B hb => ?_, Coarse.C04_partition hp hR⟩
  · unfold Coarse.freeRanges
    exact hs.once.map fun x y e => Prod.ext (congrArg Prod.snd e) (congrArg Prod.fst e)
  · unfold Coarse.freeRanges
    rw [List.mem_map]
    constructor
    · rintro ⟨e, he, rfl⟩
      obtain ⟨b, B, b1, b2, rfl⟩ := (hs.free e).1 he
      exact ⟨b, B, b1, b2, rfl⟩
    · rintro ⟨b, B, b1, b2, rfl⟩
      exact ⟨_, (hs.free _).2 ⟨b, B, b1, b2, rfl⟩, rfl⟩
  · have := hr.inv.ok _ ((hs.blocks _).2 ⟨b, B, hb, rfl⟩)
    unfold Coarse.OK viewB at this
    dsimp only at this
    by_cases hf : B.fl = 0
    · simp [hf] at this
      simp [hf, this]
    · simp [hf] at this
      simp [hf, this]

/-- C77, for C04. When merging is never refused, no two free blocks are neighbours. -/
theorem C77_coalesced (hp : cfg.page = 2 ^ k) (h : Hist cfg MergeEnv s live grants) {b c : Addr} {B C : Blk} (hb : s.blk b = some B) (hc : s.blk c = some C)
    (hub : B.fl ≠ 0) (huc : C.fl ≠ 0) : B.data + B.size ≠ C.data := by
  obtain ⟨st, hs, -, hR⟩ := C77_history hp h
  have := Coarse.C04_coalesced hp (hR fun _ h => h)
  refine this (B.data, B.size) (List.mem_map.2 ⟨(B.size, B.data), (hs.free _).2 ⟨b, B, hb, hub, rfl⟩, rfl⟩) (C.data, C.size)
    (List.mem_map.2 ⟨(C.size, C.data), (hs.free _).2 ⟨c, C, hc, huc, rfl⟩, rfl⟩)

/-- C77, for C06. When merging and splitting are never refused, an allocation succeeds if there is a run of `size + max page align` free bytes;
no memory is taken from upstream for it. -/
theorem C77_fits (hp : cfg.page = 2 ^ k) (h : Hist cfg MergeEnv s live grants) {size align : Nat} {env : Env} {host : List (Addr × Bool)} {r : Ret}
    (hw : WorldOk env (.alloc size align) host grants) (hsplit : ∀ a b c, env.splitCb a b c = .success)
    (hrun : Runs cfg s (.alloc size align) env host r s') (href : s'.refused = false) (hsz : 0 < size) (hal : align = 0 ∨ ∃ j, align = 2 ^ j) (start : Nat)
    (hfree : ∀ x, Has (start, size + max cfg.page align) x → HasAny grants x ∧ ¬ HasAny live x) : r.res = .success ∧ s'.allocSize = s.allocSize := by
  obtain ⟨A, E, hI, hr0, hR⟩ := hist_reach (Q := Coarse.Spec.Mergeable) hp (fun _ _ _ h => h) h
  obtain ⟨r', s'', A', E', g1, g2, -, ho, g, ho2, g2', k1, k2, k3, k4, k5⟩ := call_sim (cfg := cfg) (op := .alloc size align) (env := env) (host := host) hI (safe_of (clean_of hp hI hR) _) fun _ => hI.heads hr0
  obtain ⟨rfl, rfl⟩ := Ev.unique (m := run cfg _ _) hrun g1
  have k1 := k1 href
  have he : Coarse.Spec.EnvOk (cenv env ho g) (.alloc size align) grants := envOk hw (fun x => (k1 x).1) k2 (fun _ _ e => by cases e; exact .inr rfl) (fun _ _ e => by cases e)
  have k4' : (Coarse.step cfg (cenv env ho g) (abs s A E) (.alloc size align)).2.res = r.res := k4
  obtain ⟨h1, h2⟩ := Coarse.C06_fastest hp hR he hsplit (fun x => (k1 x).1) hsz hal start hfree
  refine ⟨k4'.symm.trans h1, ?_⟩
  have b0 := bytes_of hp hR
  have b1 := bytes_of hp (hR.any.step (cenv env ho g) (.alloc size align) he trivial)
  unfold Coarse.Spec.grantsAfter at b1
  rw [h2] at b1
  have e : (Coarse.step cfg (cenv env ho g) (abs s A E) (.alloc size align)).1 = abs s' A' E' := k3
  rw [e, ← b0] at b1
  exact b1

/-- C77, for C07. Giving back succeeds exactly for NULL, and for an allocation with its size or with 0. -/
theorem C77_free (hp : cfg.page = 2 ^ k) (h : Hist cfg P s live grants) {ptr size : Nat} {env : Env} {host : List (Addr × Bool)} {r : Ret}
    (hrun : Runs cfg s (.free ptr size) env host r s') (href : s'.refused = false) :
    (r.res = .success ↔ ptr = 0 ∨ ∃ n, (ptr, n) ∈ live ∧ (size = 0 ∨ size = n)) ∧ (r.res ≠ .success → r.res = .invalidArgument) := by
  obtain ⟨A, E, hI, hr0, hR⟩ := hist_reach (Q := Coarse.Spec.Any) hp (fun _ _ _ _ => trivial) h
  obtain ⟨r', s'', A', E', g1, g2, -, ho, g, ho2, g2', k1, k2, k3, k4, k5⟩ := call_sim (cfg := cfg) (op := .free ptr size) (env := env) (host := host) hI (safe_of (clean_of hp hI hR) _) fun _ => hI.heads hr0
  obtain ⟨rfl, rfl⟩ := Ev.unique (m := run cfg _ _) hrun g1
  have k4' : (Coarse.step cfg (cenv env ho g) (abs s A E) (.free ptr size)).2.res = r.res := k4
  have := Coarse.C07_free (env := cenv env ho g) (ptr := ptr) (size := size) hp hR (k1 href .reAdd).1
  dsimp only at this
  rw [k4'] at this
  exact ⟨this.1, fun h => (this.2 h).1⟩

end Verif.CoarseMem
