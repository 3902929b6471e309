import Verif.Api.PoolSpec
import Mathlib.Tactic.ByContra
/-!
# C34: pool creation and destruction
-/
namespace Verif.Api.Pool
set_option linter.unusedSimpArgs false

/-- The part of the state that the pool `id` does not own is not touched. -/
theorem other_pool {i j : Nat} {k l : Kind} : (Obj.pool i k = Obj.pool j l) ↔ i = j ∧ k = l := by
  constructor
  · intro h; cases h; exact ⟨rfl, rfl⟩
  · rintro ⟨rfl, rfl⟩; rfl

theorem create_effect {st : Obj → Bool} {id h : Nat} {tracked own : Bool} {f : Fail}
    (hf : Fresh st id) (hw : WrapperOk tracked f) :
    match (createPool id h tracked own f).1 with
    | none => ∃ st', apply st (createPool id h tracked own f).2 = some st' ∧ ∀ o, st' o = st o
    | some p => p = ⟨id, h, tracked, own, f.cache⟩ ∧
        ∃ st', apply st (createPool id h tracked own f).2 = some st' ∧
          ∀ o, st' o = if o ∈ objs p then true else st o := by
  have f1 := hf .mem
  have f2 := hf .lock
  have f3 := hf .priv
  have f4 := hf .wrapper
  have f5 := hf .wrapperPriv
  have f6 := hf .ipcMap
  have f7 := hf .openedCache
  obtain ⟨m, t, i, c, w, wp, l, n⟩ := f
  unfold WrapperOk at hw
  cases tracked
  · cases m <;> cases l <;> cases n <;>
      simp only [createPool, apply, apply1, f1, f2, f3, objs] <;> simp [other_pool, f1, f2, f3, apply, apply1]
    all_goals intro o
    all_goals (cases o with
      | provider h => simp
      | pool j k => by_cases hj : j = id <;> cases k <;> simp_all)
  · obtain ⟨rfl, rfl, rfl⟩ := hw rfl
    cases m <;> cases t <;> cases i <;> cases l <;> cases n <;>
      simp only [createPool, createWrapper, destroyWrapper, apply, apply1, objs] <;>
      simp [other_pool, f1, f2, f3, f4, f5, f6, f7, apply, apply1]
    all_goals intro o
    all_goals (cases o with
      | provider h => simp
      | pool j k => by_cases hj : j = id <;> cases k <;> simp_all)

theorem destroy_effect {st : Obj → Bool} {p : Pool} (ha : ∀ o ∈ objs p, st o = true)
    (hc : p.tracked = true → p.cache = true) (hp : p.own = true → st (.provider p.h) = true) :
    ∃ st', apply st (destroyPool p) = some st' ∧
      ∀ o, st' o = if o ∈ objs p ∨ (p.own = true ∧ o = .provider p.h) then false else st o := by
  obtain ⟨id, h, tr, own, c⟩ := p
  have g1 := ha (.pool id .mem) (by simp [objs])
  have g2 := ha (.pool id .lock) (by simp [objs])
  have g3 := ha (.pool id .priv) (by simp [objs])
  cases tr
  · cases own
    · simp only [destroyPool, apply, apply1, objs]
      simp [other_pool, g1, g2, g3, apply, apply1]
      intro o
      cases o with
      | provider h => simp
      | pool j k => by_cases hj : j = id <;> cases k <;> simp_all
    · have g0 := hp rfl
      simp only at g0
      simp only [destroyPool, apply, apply1, objs]
      simp [other_pool, g0, g1, g2, g3, apply, apply1]
      intro o
      cases o with
      | provider h' => by_cases hh : h' = h <;> simp_all
      | pool j k => by_cases hj : j = id <;> cases k <;> simp_all
  · have hcc := hc rfl
    simp only at hcc
    subst hcc
    have g4 := ha (.pool id .wrapper) (by simp [objs])
    have g5 := ha (.pool id .wrapperPriv) (by simp [objs])
    have g6 := ha (.pool id .ipcMap) (by simp [objs])
    have g7 := ha (.pool id .openedCache) (by simp [objs])
    cases own
    · simp only [destroyPool, destroyWrapper, apply, apply1, objs]
      simp [other_pool, g1, g2, g3, g4, g5, g6, g7, apply, apply1]
      intro o
      cases o with
      | provider h => simp
      | pool j k => by_cases hj : j = id <;> cases k <;> simp_all
    · have g0 := hp rfl
      simp only at g0
      simp only [destroyPool, destroyWrapper, apply, apply1, objs]
      simp [other_pool, g0, g1, g2, g3, g4, g5, g6, g7, apply, apply1]
      intro o
      cases o with
      | provider h' => by_cases hh : h' = h <;> simp_all
      | pool j k => by_cases hj : j = id <;> cases k <;> simp_all

theorem objs_id {p : Pool} {o : Obj} (h : o ∈ objs p) : ∃ k, o = .pool p.id k := by
  unfold objs at h
  split at h <;> simp at h
  · rcases h with h | h | h | h | h | h | h <;> exact ⟨_, h⟩
  · rcases h with h | h | h <;> exact ⟨_, h⟩

structure Inv (st : Obj → Bool) (ps : List Pool) (hs : List Nat) : Prop where
  objs : ∀ o, st o = true ↔ (∃ p ∈ ps, o ∈ objs p) ∨ ∃ h ∈ hs, o = .provider h
  ids : ps.Pairwise fun p q => p.id ≠ q.id
  prov : ∀ p ∈ ps, p.h ∈ hs
  cache : ∀ p ∈ ps, p.tracked = true → p.cache = true
  nodup : hs.Nodup

theorem fresh_of {st : Obj → Bool} {ps : List Pool} {hs : List Nat} (hI : Inv st ps hs) {id : Nat}
    (h : ∀ q ∈ ps, q.id ≠ id) : Fresh st id := by
  intro k
  by_contra hc
  have hc : st (.pool id k) = true := by simpa using hc
  rcases (hI.objs _).1 hc with ⟨p, hp, ho⟩ | ⟨h', _, ho⟩
  · obtain ⟨k', e⟩ := objs_id ho
    exact h p hp ((other_pool.1 e).1.symm)
  · cases ho

theorem ids_ne {ps : List Pool} (h : ps.Pairwise fun p q => p.id ≠ q.id) {p : Pool} (hp : p ∈ ps) :
    ∀ q ∈ ps, q ≠ p → q.id ≠ p.id := by
  induction ps with
  | nil => simp
  | cons a ps ih =>
    obtain ⟨h1, h2⟩ := List.pairwise_cons.1 h
    intro q hq hne
    rcases List.mem_cons.1 hp with rfl | hp'
    · rcases List.mem_cons.1 hq with rfl | hq'
      · exact absurd rfl hne
      · exact (h1 q hq').symm
    · rcases List.mem_cons.1 hq with rfl | hq'
      · exact h1 p hp'
      · exact ih h2 hp' q hq' hne

theorem hist_inv {st : Obj → Bool} {ps : List Pool} {hs : List Nat} (h : Hist st ps hs) :
    Inv st ps hs := by
  induction h with
  | init => exact ⟨by simp, List.Pairwise.nil, by simp, by simp, List.nodup_nil⟩
  | @provider st ps hs h _ hn ih =>
    refine ⟨?_, ih.ids, fun p hp => List.mem_cons_of_mem _ (ih.prov p hp), ih.cache,
      List.nodup_cons.2 ⟨hn, ih.nodup⟩⟩
    intro o
    by_cases ho : o = .provider h
    · subst ho; simp
    · simp only [if_neg ho]
      rw [ih.objs]
      simp [ho]
  | @dropProvider st ps hs h _ hm hu ih =>
    refine ⟨?_, ih.ids, ?_, ih.cache, ih.nodup.erase _⟩
    · intro o
      by_cases ho : o = .provider h
      · subst ho
        simp only [if_true, Bool.false_eq_true, false_iff]
        rintro (⟨p, hp, hx⟩ | ⟨h', h1, h2⟩)
        · obtain ⟨k, e⟩ := objs_id hx; cases e
        · cases h2
          exact ((List.Nodup.mem_erase_iff ih.nodup).1 h1).1 rfl
      · simp only [if_neg ho]
        rw [ih.objs]
        constructor
        · rintro (h1 | ⟨h', h1, rfl⟩)
          · exact Or.inl h1
          · refine Or.inr ⟨h', (List.Nodup.mem_erase_iff ih.nodup).2 ⟨?_, h1⟩, rfl⟩
            rintro rfl
            exact ho rfl
        · rintro (h1 | ⟨h', h1, rfl⟩)
          · exact Or.inl h1
          · exact Or.inr ⟨h', List.mem_of_mem_erase h1, rfl⟩
    · intro p hp
      exact (List.Nodup.mem_erase_iff ih.nodup).2 ⟨hu p hp, ih.prov p hp⟩
  | @create st ps hs id h tracked own f st' p _ hm hid hw hr ha ih =>
    have he := create_effect (h := h) (own := own) (fresh_of ih hid) hw
    rw [hr] at he
    obtain ⟨rfl, st2, e1, e2⟩ := he
    rw [ha] at e1
    cases e1
    refine ⟨?_, List.pairwise_cons.2 ⟨fun q hq => (hid q hq).symm, ih.ids⟩, ?_, ?_, ih.nodup⟩
    · intro o
      rw [e2]
      split
      · rename_i ho
        simp only [true_iff]
        exact Or.inl ⟨_, List.mem_cons_self, ho⟩
      · rename_i ho
        rw [ih.objs]
        constructor
        · rintro (⟨q, hq, hx⟩ | h1)
          · exact Or.inl ⟨q, List.mem_cons_of_mem _ hq, hx⟩
          · exact Or.inr h1
        · rintro (⟨q, hq, hx⟩ | h1)
          · rcases List.mem_cons.1 hq with rfl | hq
            · exact absurd hx ho
            · exact Or.inl ⟨q, hq, hx⟩
          · exact Or.inr h1
    · intro q hq
      rcases List.mem_cons.1 hq with rfl | hq
      · exact hm
      · exact ih.prov q hq
    · intro q hq
      rcases List.mem_cons.1 hq with rfl | hq
      · exact fun ht => (hw ht).1
      · exact ih.cache q hq
  | @createFail st ps hs id h tracked own f st' _ hm hid hw hr ha ih =>
    have he := create_effect (h := h) (own := own) (fresh_of ih hid) hw
    rw [hr] at he
    obtain ⟨st2, e1, e2⟩ := he
    rw [ha] at e1
    cases e1
    exact ⟨fun o => by rw [e2]; exact ih.objs o, ih.ids, ih.prov, ih.cache, ih.nodup⟩
  | @destroy st ps hs p st' _ hp hown ha ih =>
    obtain ⟨st2, e1, e2⟩ := destroy_effect (st := st) (p := p)
      (fun o ho => (ih.objs o).2 (Or.inl ⟨p, hp, ho⟩)) (ih.cache p hp)
      (fun _ => (ih.objs _).2 (Or.inr ⟨_, ih.prov p hp, rfl⟩))
    rw [ha] at e1
    cases e1
    have hnd : ps.Nodup := ih.ids.imp fun h => by rintro rfl; exact h rfl
    have hids : ∀ q ∈ ps, q ≠ p → q.id ≠ p.id := ids_ne ih.ids hp
    refine ⟨?_, ih.ids.sublist List.erase_sublist, ?_, fun q hq => ih.cache q (List.mem_of_mem_erase hq), ?_⟩
    · intro o
      rw [e2]
      by_cases ho : o ∈ objs p
      · simp only [ho, true_or, if_true, Bool.false_eq_true, false_iff]
        obtain ⟨k, rfl⟩ := objs_id ho
        rintro (⟨q, hq, hx⟩ | ⟨h', _, hx⟩)
        · obtain ⟨h1, h2⟩ := (List.Nodup.mem_erase_iff hnd).1 hq
          obtain ⟨k', e⟩ := objs_id hx
          exact hids q h2 h1 (other_pool.1 e).1.symm
        · cases hx
      · by_cases hpr : p.own = true ∧ o = .provider p.h
        · simp only [hpr, ho, or_true, and_self, if_true, Bool.false_eq_true, false_iff]
          rintro (⟨q, hq, hx⟩ | ⟨h', h1, hx⟩)
          · obtain ⟨k', e⟩ := objs_id hx
            cases e
          · cases hx
            exact ((List.Nodup.mem_erase_iff ih.nodup).1 h1).1 rfl
        · rw [if_neg (by rintro (h | h); exacts [ho h, hpr h]), ih.objs]
          constructor
          · rintro (⟨q, hq, hx⟩ | ⟨h', h1, rfl⟩)
            · refine Or.inl ⟨q, (List.Nodup.mem_erase_iff hnd).2 ⟨?_, hq⟩, hx⟩
              rintro rfl
              exact ho hx
            · refine Or.inr ⟨h', ?_, rfl⟩
              split
              · rename_i hw
                refine (List.Nodup.mem_erase_iff ih.nodup).2 ⟨?_, h1⟩
                rintro rfl
                exact hpr ⟨hw, rfl⟩
              · exact h1
          · rintro (⟨q, hq, hx⟩ | ⟨h', h1, rfl⟩)
            · exact Or.inl ⟨q, List.mem_of_mem_erase hq, hx⟩
            · refine Or.inr ⟨h', ?_, rfl⟩
              split at h1
              · exact List.mem_of_mem_erase h1
              · exact h1
    · intro q hq
      obtain ⟨h1, h2⟩ := (List.Nodup.mem_erase_iff hnd).1 hq
      split
      · rename_i hw
        exact (List.Nodup.mem_erase_iff ih.nodup).2 ⟨hown hw q h2 h1, ih.prov q h2⟩
      · exact ih.prov q h2
    · split
      · exact ih.nodup.erase _
      · exact ih.nodup

/-- C34 (part): after any history of creations, failed creations and destructions of pools, exactly the objects of the
live pools and the live providers are live. In particular a failed creation leaves nothing behind
and does not destroy the caller's provider, even an owned one. A pool that owns its provider
takes it along, another one leaves it. Missing: failures of host memory for the tracking wrapper or its cache
(`C34_createLeak_violated`, `C34_cacheNull_violated`). -/
theorem C34_live_partial {st : Obj → Bool} {ps : List Pool} {hs : List Nat} (h : Hist st ps hs) (o : Obj) :
    st o = true ↔ (∃ p ∈ ps, o ∈ objs p) ∨ ∃ h ∈ hs, o = .provider h :=
  (hist_inv h).objs o

/-- C34 (part): no creation and no destruction uses a null pointer, makes an object twice or releases one that does
not exist. -/
theorem C34_safe_partial {st : Obj → Bool} {ps : List Pool} {hs : List Nat} (h : Hist st ps hs) :
    (∀ id hp tracked own f, (∀ q ∈ ps, q.id ≠ id) → WrapperOk tracked f →
      apply st (createPool id hp tracked own f).2 ≠ none) ∧
    (∀ p ∈ ps, apply st (destroyPool p) ≠ none) := by
  have hI := hist_inv h
  constructor
  · intro id hp tracked own f hid hw
    have he := create_effect (h := hp) (own := own) (fresh_of hI hid) hw
    split at he
    · obtain ⟨st', e, _⟩ := he
      rw [e]; simp
    · obtain ⟨_, st', e, _⟩ := he
      rw [e]; simp
  · intro p hp
    obtain ⟨st2, e1, _⟩ := destroy_effect (st := st) (p := p)
      (fun o ho => (hI.objs o).2 (Or.inl ⟨p, hp, ho⟩)) (hI.cache p hp)
      (fun _ => (hI.objs _).2 (Or.inr ⟨_, hI.prov p hp, rfl⟩))
    rw [e1]; simp

/-- C34 (part): creation succeeds if nothing fails, and then has the provider and the flags it was asked for. -/
theorem C34_succeeds (id h : Nat) (tracked own : Bool) (f : Fail) (h1 : f.mem = true) (h2 : f.lock = true)
    (h3 : f.init = true)
    (h4 : tracked = true → f.tracker = true ∧ f.ipcMap = true ∧ f.wrapper = true ∧ f.wrapperPriv = true) :
    ∃ c, (createPool id h tracked own f).1 = some ⟨id, h, tracked, own, c⟩ := by
  refine ⟨f.cache, ?_⟩
  cases tracked
  · simp [createPool, h1, h2, h3]
  · obtain ⟨a, b, c, d⟩ := h4 rfl
    simp [createPool, createWrapper, h1, h2, h3, a, b, c, d]

/-- C34: the pool's own data goes before the wrapper through which it releases its memory, the
wrapper before the owned provider to which it passes the memory, and the pool's structure is last. -/
theorem C34_order (p : Pool) (hc : p.tracked = true → p.cache = true) :
    (p.tracked = true → Before (.release (.pool p.id .priv)) (.release (.pool p.id .wrapper)) (destroyPool p)) ∧
    (p.tracked = true → p.own = true →
      Before (.release (.pool p.id .wrapper)) (.release (.provider p.h)) (destroyPool p)) ∧
    (p.own = true → Before (.release (.pool p.id .priv)) (.release (.provider p.h)) (destroyPool p)) ∧
    (∃ x, destroyPool p = x ++ [.release (.pool p.id .mem)]) := by
  obtain ⟨id, h, tr, own, c⟩ := p
  simp only at hc
  refine ⟨?_, ?_, ?_, ?_⟩
  · rintro rfl
    cases hc rfl
    cases own
    · exact ⟨[], [_, _, _], [_, _], rfl⟩
    · exact ⟨[], [_, _, _], [_, _, _], rfl⟩
  · rintro rfl rfl
    cases hc rfl
    exact ⟨[_, _, _, _], [], [_, _], rfl⟩
  · rintro rfl
    cases tr
    · exact ⟨[], [], [_, _], rfl⟩
    · cases hc rfl
      exact ⟨[], [_, _, _, _], [_, _], rfl⟩
  · cases tr
    · cases own
      · exact ⟨[_, _], rfl⟩
      · exact ⟨[_, _, _], rfl⟩
    · cases hc rfl
      cases own
      · exact ⟨[_, _, _, _, _, _], rfl⟩
      · exact ⟨[_, _, _, _, _, _, _], rfl⟩

/-- Nothing fails. -/
def good : Fail := ⟨true, true, true, true, true, true, true, true⟩

/-- A tracked pool that owns provider 7 is created, destroyed, and then nothing is live; creation of a second pool
with the mutex failing changes nothing in between. -/
example : ∃ st1 st2 st3, Hist st1 [⟨1, 7, true, true, true⟩] [7] ∧
    Hist st2 [⟨1, 7, true, true, true⟩] [7] ∧ Hist st3 [] [] := by
  have h0 := Hist.provider (h := 7) Hist.init (by simp)
  obtain ⟨hp, st1, a1, _⟩ := create_effect (h := 7) (own := true) (tracked := true) (f := good)
    (st := fun x => if x = Obj.provider 7 then true else false) (id := 1) (by intro k; simp)
    (by intro _; simp [good])
  have h1 := Hist.create (p := ⟨1, 7, true, true, true⟩) h0 (by simp) (by simp) (by intro _; simp [good]) rfl a1
  have e1 := C34_safe_partial h1
  obtain ⟨st2, a2⟩ := Option.ne_none_iff_exists'.1
    (e1.1 2 7 true false { good with lock := false } (by simp) (by intro _; simp [good]))
  have h2 := Hist.createFail h1 (by simp) (by simp) (by intro _; simp [good]) rfl a2
  obtain ⟨st3, a3⟩ := Option.ne_none_iff_exists'.1
    ((C34_safe_partial h2).2 ⟨1, 7, true, true, true⟩ (by simp))
  have h3 := Hist.destroy h2 (by simp) (by intro _ q hq hne; simp_all) a3
  exact ⟨st1, st2, st3, h1, h2, by simpa using h3⟩

/-- C34 is violated: if there is no host memory for the wrapper, the creation fails and the map of
exported handles and the cache stay behind. -/
theorem C34_createLeak_violated : ∃ st : Obj → Bool, ∃ f : Fail, Hist st [] [7] ∧
    (createPool 1 7 true false f).1 = none ∧
    ∃ st', apply st (createPool 1 7 true false f).2 = some st' ∧
      st' (.pool 1 .ipcMap) = true ∧ st' (.pool 1 .openedCache) = true := by
  refine ⟨_, { good with wrapper := false }, Hist.provider (h := 7) Hist.init (by simp), rfl, ?_⟩
  simp [createPool, createWrapper, good, apply, apply1]

/-- C34 is violated: if there is no host memory for the cache of opened handles, the creation succeeds all the same and
the destruction uses a null pointer. -/
theorem C34_cacheNull_violated : ∃ st : Obj → Bool, ∃ f : Fail, ∃ p, Hist st [] [7] ∧
    (createPool 1 7 true false f).1 = some p ∧
    ∃ st', apply st (createPool 1 7 true false f).2 = some st' ∧ apply st' (destroyPool p) = none := by
  refine ⟨_, { good with cache := false }, _, Hist.provider (h := 7) Hist.init (by simp), rfl, ?_⟩
  simp [createPool, createWrapper, good, apply, apply1, destroyPool, destroyWrapper]

end Verif.Api.Pool
