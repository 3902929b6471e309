import Verif.CoarseMem.Refine
/-!
# Lemmas for the coarse allocator, pointer by pointer: histories without refusals are histories of the model with lists
-/
namespace Verif.CoarseMem
open Verif.Coarse (Res Cfg)
open Verif.Coarse.Index (Ent)
open Verif.Coarse.Spec (Region Fresh EnvOk bytes)

variable {s s' : St} {A : List (Addr × Nat × Addr)} {E : List Ent} {cfg : Cfg} {k : Nat} {live grants : List Region} {Q : Coarse.Env → Prop}

/-- No block is used and on a list. -/
theorem clean_of (hp : cfg.page = 2 ^ k) (hI : Inv s A E) (hR : Coarse.Spec.Reach cfg Q (abs s A E) live grants) : Clean s := by
  intro b B hb hu
  have hr := Coarse.reach_rel hp hR.any
  have hm : viewB B ∈ (abs s A E).blocks := (hI.shows.blocks _).2 ⟨b, B, hb, rfl⟩
  have := hr.inv.ok _ hm
  unfold Coarse.OK viewB at this
  dsimp only at this
  rw [hu] at this
  simpa using this

theorem safe_of (h : Clean s) (op : Op) : Safe s op := fun _ _ _ b B hb _ hu => h b B hb hu

/-- The number of bytes the allocator has. -/
theorem bytes_of (hp : cfg.page = 2 ^ k) {st : Coarse.St} (hR : Coarse.Spec.Reach cfg Q st live grants) : st.allocSize = bytes grants := by
  obtain ⟨a, u, b, f, h1, h2, -⟩ := Coarse.C03_statsExact hp hR.any
  unfold Coarse.stats at h1
  cases h1
  exact h2

theorem upAlloc_err {env : Env} {ho : Coarse.Site → Bool} {g : Bool} {size a : Nat} {r : Res} (hu : (cenv env ho g).upAlloc size a = .error r) : r ≠ .success := by
  have hu' : (if (env.upAlloc size a).1 = .success then Except.ok (env.upAlloc size a).2 else Except.error (env.upAlloc size a).1) = Except.error r := hu
  by_cases h : (env.upAlloc size a).1 = .success
  · rw [if_pos h] at hu'
    cases hu'
  · rw [if_neg h] at hu'
    cases hu'
    exact h

theorem envOk {env : Env} {op : Op} {host : List (Addr × Bool)} {ho : Coarse.Site → Bool} {g : Bool} {o : Coarse.Op} (hw : WorldOk env op host grants)
    (hh : ∀ x, ho x = true) (hg : (∀ x ∈ host, x.2 = false) → g = false)
    (ha : ∀ size a, o = .alloc size a → (op = .addUpstream size ∧ size ≠ 0) ∨ op = .alloc size a) (hf : ∀ addr size, o = .addFixed addr size → op = .addFixed addr size) :
    EnvOk (cenv env ho g) o grants := by
  have hop : ∀ size a, o = .alloc size a → op = .addUpstream size ∨ ∃ a, op = .alloc size a := fun size a e =>
    (ha size a e).imp (fun h => h.1) fun h => ⟨a, h⟩
  refine ⟨hh _, hh _, hh _, fun size align e => ?_, fun size align a p e hu => ?_, fun size a r hu => ?_, fun addr size e => hw.fixed addr size (hf addr size e)⟩
  · rcases hw.flag size (hop size align e) with h | ⟨h1, h2⟩
    · exact .inl (hg h)
    · refine .inr ⟨?_, h1, hh _⟩
      rcases ha size align e with ⟨-, h⟩ | h
      · exact Nat.pos_of_ne_zero h
      · refine Nat.pos_of_ne_zero fun h0 => ?_
        subst h0
        exact h2 align h
  · have hu' : (if (env.upAlloc size a).1 = .success then Except.ok (env.upAlloc size a).2 else Except.error (env.upAlloc size a).1) = Except.ok p := hu
    by_cases h : (env.upAlloc size a).1 = .success
    · rw [if_pos h] at hu'
      cases hu'
      exact hw.up size a (hop size align e) h
    · rw [if_neg h] at hu'
      cases hu'
  · exact upAlloc_err hu

theorem upAlloc_ok {env : Env} {ho : Coarse.Site → Bool} {g : Bool} {size a p : Nat} (h : (cenv env ho g).upAlloc size a = .ok p) :
    (env.upAlloc size a).1 = .success ∧ (env.upAlloc size a).2 = p := by
  have hu' : (if (env.upAlloc size a).1 = .success then Except.ok (env.upAlloc size a).2 else Except.error (env.upAlloc size a).1) = Except.ok p := h
  by_cases h : (env.upAlloc size a).1 = .success
  · rw [if_pos h] at hu'
    cases hu'
    exact ⟨by assumption, rfl⟩
  · rw [if_neg h] at hu'
    cases hu'

/-- Books of one call that is one call in the model with lists. -/
theorem one_call {st st' : Coarse.St} {op : Op} {o : Coarse.Op} {env : Env} {ce : Coarse.Env} {r : Ret} (hp : cfg.page = 2 ^ k)
    (hR : Coarse.Spec.Reach cfg Q st live grants) (he : EnvOk ce o grants) (hQ : Q ce) (hs : Same (Coarse.step cfg ce st o) st' r)
    (hl : ∀ out : Coarse.Out, out.res = r.res → out.ptr = r.ptr → Coarse.Spec.liveAfter live o out = liveAfter live op r)
    (hg : ∀ x, (Coarse.step cfg ce st o).2.got = some x → 0 < x.2 ∧ grantsAfter cfg grants op env r true = x :: grants) :
    Coarse.Spec.Reach cfg Q st' (liveAfter live op r) (grantsAfter cfg grants op env r (st'.allocSize != st.allocSize)) := by
  have h1 := hR.step ce o he hQ
  obtain ⟨s1, s2, s3⟩ := hs
  have b0 := bytes_of hp hR
  have b1 := bytes_of hp h1
  rw [hl _ s2 s3] at h1
  rw [s1] at h1 b1
  have e : grantsAfter cfg grants op env r (st'.allocSize != st.allocSize) = Coarse.Spec.grantsAfter grants (Coarse.step cfg ce st o).2 := by
    unfold Coarse.Spec.grantsAfter at b1 ⊢
    cases hx : (Coarse.step cfg ce st o).2.got with
    | none =>
      rw [hx] at b1
      dsimp only at b1 ⊢
      have : (st'.allocSize != st.allocSize) = false := by
        rw [b0, b1]
        simp
      rw [this]
      rfl
    | some x =>
      rw [hx] at b1
      dsimp only at b1 ⊢
      obtain ⟨p1, p2⟩ := hg x hx
      have : (st'.allocSize != st.allocSize) = true := by
        rw [b0, b1]
        unfold bytes
        rw [List.map_cons, List.sum_cons]
        simp
        omega
      rw [this]
      exact p2
  rw [e]
  exact h1

/-- A history without refusals is a history of the model with lists. -/
theorem hist_reach {P : Env → Prop} (hp : cfg.page = 2 ^ k) (hQ : ∀ env ho g, P env → Q (cenv env ho g)) (h : Hist cfg P s live grants) :
    ∃ A E, Inv s A E ∧ s.refused = false ∧ Coarse.Spec.Reach cfg Q (abs s A E) live grants := by
  induction h with
  | init =>
    obtain ⟨⟨A, E, hI⟩, -, -⟩ := init_good .zeroed
    have hA : (abs St.init A E).blocks = [] := by
      refine List.eq_nil_iff_forall_not_mem.2 fun x hx => ?_
      obtain ⟨b, B, h1, -⟩ := (hI.shows.blocks x).1 hx
      cases h1
    have hE : (abs St.init A E).free = [] := by
      refine List.eq_nil_iff_forall_not_mem.2 fun x hx => ?_
      obtain ⟨b, B, h1, -⟩ := (hI.shows.free x).1 hx
      cases h1
    have : abs St.init A E = Coarse.init := by
      unfold abs at hA hE ⊢
      dsimp only at hA hE
      rw [hA, hE]
      rfl
    refine ⟨A, E, hI, rfl, ?_⟩
    rw [this]
    exact .init
  | @step s s' live grants op env host r h0 hw hP hrun href ih =>
    obtain ⟨A, E, hI, hr0, hR⟩ := ih
    have hC := clean_of hp hI hR
    obtain ⟨r', s'', A', E', g1, g2, -, ho, g, ho2, g2', k1, k2, k3⟩ := call_sim (cfg := cfg) (env := env) (host := host) hI (safe_of hC op) fun _ => hI.heads hr0
    obtain ⟨rfl, rfl⟩ := Ev.unique (m := run cfg _ _) hrun g1
    have k1 := k1 href
    refine ⟨A', E', g2, href, ?_⟩
    have hsz : (s'.allocSize != s.allocSize) = ((abs s' A' E').allocSize != (abs s A E).allocSize) := rfl
    rw [hsz]
    cases op with
    | alloc size a =>
      have he : EnvOk (cenv env ho g) (.alloc size a) grants := envOk hw (fun x => (k1 x).1) k2 (fun _ _ e => by cases e; exact .inr rfl) (fun _ _ e => by cases e)
      refine one_call hp hR he (hQ env ho g hP) k3 (fun out h1 h2 => ?_) fun x hx => ?_
      · unfold Coarse.Spec.liveAfter liveAfter
        rw [h1, h2]
      · obtain ⟨q1, q2, a', q3, q4⟩ := alloc_got hx
        obtain ⟨f1, -⟩ := he.up size a a' _ rfl q4
        rw [q2]
        refine ⟨f1.size, ?_⟩
        have : (Coarse.alloc cfg (cenv env ho g) (abs s A E) size a).2.ptr = r.ptr := k3.2.2
        rw [this]
        rfl
    | free p n =>
      refine one_call hp hR (envOk hw (fun x => (k1 x).1) k2 (fun _ _ e => by cases e) (fun _ _ e => by cases e)) (hQ env ho g hP) k3 (fun out h1 h2 => ?_) fun x hx => ?_
      · unfold Coarse.Spec.liveAfter liveAfter
        rw [h1]
      · have : (Coarse.free (cenv env ho g) (abs s A E) p n).2.got = some x := hx
        rw [free_out] at this
        cases this
    | split p t f =>
      refine one_call hp hR (envOk hw (fun x => (k1 x).1) k2 (fun _ _ e => by cases e) (fun _ _ e => by cases e)) (hQ env ho g hP) k3 (fun out h1 h2 => ?_) fun x hx => ?_
      · unfold Coarse.Spec.liveAfter liveAfter
        rw [h1]
      · have : (Coarse.split (cenv env ho g) (abs s A E) p t f).2.got = some x := hx
        rw [split_got] at this
        cases this
    | merge l h t =>
      refine one_call hp hR (envOk hw (fun x => (k1 x).1) k2 (fun _ _ e => by cases e) (fun _ _ e => by cases e)) (hQ env ho g hP) k3 (fun out h1 h2 => ?_) fun x hx => ?_
      · unfold Coarse.Spec.liveAfter liveAfter
        rw [h1]
      · have : (Coarse.merge (cenv env ho g) (abs s A E) l h t).2.got = some x := hx
        rw [merge_got] at this
        cases this
    | addFixed addr size =>
      refine one_call hp hR (envOk hw (fun x => (k1 x).1) k2 (fun _ _ e => by cases e) (fun _ _ e => by cases e; rfl)) (hQ env ho g hP) k3 (fun out h1 h2 => ?_) fun x hx => ?_
      · unfold Coarse.Spec.liveAfter liveAfter
        rw [h1]
      · obtain ⟨q1, q2⟩ := addFixed_got hx
        rw [q1]
        exact ⟨Nat.pos_of_ne_zero q2, rfl⟩
    | addUpstream size =>
      have hlive : liveAfter live (.addUpstream size) r = live := by
        unfold liveAfter
        split <;> rfl
      rw [hlive]
      have hsame : abs s' A' E' = abs s A E → Coarse.Spec.Reach cfg Q (abs s' A' E') live
          (grantsAfter cfg grants (.addUpstream size) env r ((abs s' A' E').allocSize != (abs s A E).allocSize)) := by
        intro e
        rw [e]
        have : ((abs s A E).allocSize != (abs s A E).allocSize) = false := by simp
        rw [this]
        exact hR
      have k3' : Same (addUpA cfg (cenv env ho g) (cenv env ho2 g2') (abs s A E) size) (abs s' A' E') r := k3
      unfold addUpA at k3'
      by_cases h1 : size = 0
      · rw [if_pos h1] at k3'
        exact hsame k3'.1.symm
      rw [if_neg h1] at k3'
      by_cases h2 : cfg.hasAlloc = true
      · rw [if_pos h2] at k3'
        have he : EnvOk (cenv env ho g) (.alloc size cfg.page) grants := envOk hw (fun x => (k1 x).1) k2 (fun _ _ e => by cases e; exact .inl ⟨rfl, h1⟩) (fun _ _ e => by cases e)
        have r1 := hR.step (cenv env ho g) (.alloc size cfg.page) he (hQ env ho g hP)
        have b0 := bytes_of hp hR
        have b1 := bytes_of hp r1
        have hgr : ∀ z, z = bytes (Coarse.Spec.grantsAfter grants (Coarse.step cfg (cenv env ho g) (abs s A E) (.alloc size cfg.page)).2) →
            grantsAfter cfg grants (.addUpstream size) env r (z != (abs s A E).allocSize) =
              Coarse.Spec.grantsAfter grants (Coarse.step cfg (cenv env ho g) (abs s A E) (.alloc size cfg.page)).2 := by
          intro z hz
          rw [hz, b0]
          unfold Coarse.Spec.grantsAfter
          cases hx : (Coarse.step cfg (cenv env ho g) (abs s A E) (.alloc size cfg.page)).2.got with
          | none =>
            have : (bytes grants != bytes grants) = false := by simp
            dsimp only
            rw [this]
            rfl
          | some x =>
            obtain ⟨q1, q2, a', q3, q4⟩ := alloc_got hx
            obtain ⟨f1, -⟩ := he.up size cfg.page a' _ rfl q4
            have hpage : a' = cfg.page := by
              rw [Coarse.effAlign_eq hp (.inr ⟨k, hp⟩)] at q3
              have := Option.some.inj q3
              rw [Nat.max_self] at this
              exact this.symm
            have f2 : 0 < size := f1.size
            dsimp only
            have : (bytes (x :: grants) != bytes grants) = true := by
              unfold bytes
              rw [List.map_cons, List.sum_cons, q2]
              simp
              omega
            rw [this, q2, ← (upAlloc_ok q4).2, hpage]
            rfl
        by_cases h3 : (Coarse.alloc cfg (cenv env ho g) (abs s A E) size cfg.page).2.res = .success
        · rw [if_pos h3] at k3'
          have hl1 : Coarse.Spec.liveAfter live (.alloc size cfg.page) (Coarse.step cfg (cenv env ho g) (abs s A E) (.alloc size cfg.page)).2 =
              ((Coarse.alloc cfg (cenv env ho g) (abs s A E) size cfg.page).2.ptr, size) :: live := by
            unfold Coarse.Spec.liveAfter
            rw [if_pos (c := (Coarse.step cfg (cenv env ho g) (abs s A E) (.alloc size cfg.page)).2.res = .success) h3]
            rfl
          rw [hl1] at r1
          have hfree := (Coarse.C07_free (env := cenv env ho2 g2') (ptr := (Coarse.alloc cfg (cenv env ho g) (abs s A E) size cfg.page).2.ptr) (size := size) hp r1.any (k1 .reAdd).2).1.2
            (.inr ⟨size, by simp, .inr rfl⟩)
          have r2 := r1.step (cenv env ho2 g2') (.free (Coarse.alloc cfg (cenv env ho g) (abs s A E) size cfg.page).2.ptr size)
            ⟨(k1 _).2, (k1 _).2, (k1 _).2, (fun _ _ e => by cases e), (fun _ _ _ _ e => by cases e), fun _ _ _ => upAlloc_err, fun _ _ e => by cases e⟩ (hQ env ho2 g2' hP)
          have b2 := bytes_of hp r2
          have hd := (Coarse.C01_liveDisjoint hp r1.any)
          rw [List.pairwise_cons] at hd
          have hl2 : Coarse.Spec.liveAfter (((Coarse.alloc cfg (cenv env ho g) (abs s A E) size cfg.page).2.ptr, size) :: live)
              (.free (Coarse.alloc cfg (cenv env ho g) (abs s A E) size cfg.page).2.ptr size)
              (Coarse.step cfg (cenv env ho2 g2') (Coarse.step cfg (cenv env ho g) (abs s A E) (.alloc size cfg.page)).1
                (.free (Coarse.alloc cfg (cenv env ho g) (abs s A E) size cfg.page).2.ptr size)).2 = live := by
            unfold Coarse.Spec.liveAfter
            rw [if_pos hfree]
            dsimp only
            rw [List.filter_cons_of_neg (by simp)]
            refine List.filter_eq_self.2 fun x hx => ?_
            have h4 := hd.1.1 x hx
            have h5 := hd.2 x (by simp [hx])
            refine bne_iff_ne.2 fun e => h4 x.1 ⟨?_, ?_⟩
            · unfold Coarse.Spec.Has
              dsimp only
              omega
            · unfold Coarse.Spec.Has
              omega
          have hg2 : ∀ gr, Coarse.Spec.grantsAfter gr (Coarse.step cfg (cenv env ho2 g2') (Coarse.step cfg (cenv env ho g) (abs s A E) (.alloc size cfg.page)).1
                (.free (Coarse.alloc cfg (cenv env ho g) (abs s A E) size cfg.page).2.ptr size)).2 = gr := by
            intro gr
            unfold Coarse.Spec.grantsAfter
            rw [show (Coarse.step cfg (cenv env ho2 g2') (Coarse.step cfg (cenv env ho g) (abs s A E) (.alloc size cfg.page)).1
                (.free (Coarse.alloc cfg (cenv env ho g) (abs s A E) size cfg.page).2.ptr size)).2.got = none from free_out _ _ _ _]
          rw [hl2, hg2] at r2
          rw [hg2] at b2
          have e1 : (Coarse.step cfg (cenv env ho2 g2') (Coarse.step cfg (cenv env ho g) (abs s A E) (.alloc size cfg.page)).1
                (.free (Coarse.alloc cfg (cenv env ho g) (abs s A E) size cfg.page).2.ptr size)).1 = abs s' A' E' := k3'.1
          rw [e1] at r2 b2
          rw [hgr _ b2]
          exact r2
        · rw [if_neg h3] at k3'
          have hl1 : Coarse.Spec.liveAfter live (.alloc size cfg.page) (Coarse.step cfg (cenv env ho g) (abs s A E) (.alloc size cfg.page)).2 = live := by
            unfold Coarse.Spec.liveAfter
            rw [if_neg (c := (Coarse.step cfg (cenv env ho g) (abs s A E) (.alloc size cfg.page)).2.res = .success) h3]
          rw [hl1] at r1
          have e1 : (Coarse.step cfg (cenv env ho g) (abs s A E) (.alloc size cfg.page)).1 = abs s' A' E' := k3'.1
          rw [e1] at r1 b1
          rw [hgr _ b1]
          exact r1
      · rw [if_neg h2] at k3'
        exact hsame k3'.1.symm

end Verif.CoarseMem
