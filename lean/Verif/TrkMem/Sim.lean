import Verif.TrkMem.Inv
/-! # The functions in memory do what the functions on regions do -/
namespace Verif.TrkMem
open Tracker (Res word upSplit upMerge UpAlloc Entry)

variable {s : St} {E : List Addr}

theorem findLe_view (h : Addr → Info) (l : List (Nat × Addr)) (x : Nat) :
    Tracker.findLe (l.map (ent h)) x = (findLe l x).map (ent h) := by
  induction l with
  | nil => rfl
  | cons e l ih =>
    rw [List.map_cons, Tracker.findLe, findLe, ih]
    cases findLe l x with
    | none =>
      dsimp only [Option.map_none]
      by_cases h1 : e.1 ≤ x
      · rw [if_pos h1, if_pos (show (ent h e).key ≤ x from h1)]
        rfl
      · rw [if_neg h1, if_neg (show ¬(ent h e).key ≤ x from h1)]
        rfl
    | some f =>
      dsimp only [Option.map_some]
      by_cases h1 : e.1 ≤ x ∧ f.1 < e.1
      · rw [if_pos h1, if_pos (show (ent h e).key ≤ x ∧ (ent h f).key < (ent h e).key from h1)]
        rfl
      · rw [if_neg h1, if_neg (show ¬((ent h e).key ≤ x ∧ (ent h f).key < (ent h e).key) from h1)]
        rfl

theorem findLe_mem {l : List (Nat × Addr)} {x : Nat} {e : Nat × Addr} (h : findLe l x = some e) : e ∈ l := by
  induction l generalizing e with
  | nil => cases h
  | cons d l ih =>
    rw [findLe] at h
    cases hf : findLe l x with
    | none =>
      rw [hf] at h
      dsimp only at h
      split at h
      · cases h
        simp
      · cases h
    | some f =>
      rw [hf] at h
      dsimp only at h
      split at h
      · cases h
        simp
      · cases h
        exact List.mem_cons_of_mem _ (ih hf)

/-- Where a parent is. -/
def ParOk (s : St) (level : Nat) (p : Option Addr) (q : Option Nat) : Prop :=
  match p, q with
  | none, none => True
  | some a, some k => ∃ l, level = l + 1 ∧ (k, a) ∈ s.lv l
  | _, _ => False

def LastOk (s : St) (level : Nat) (p : Option (Nat × Addr)) (q : Option Entry) : Prop :=
  match p, q with
  | none, none => True
  | some e, some f => f = ent s.heap e ∧ (∃ l, e ∈ s.lv l) ∧ ((s.heap e.2).nch = 0 → e ∈ s.lv level)
  | _, _ => False

def PosKids (s : St) (p : Option Addr) : Prop := ∀ a, p = some a → (s.heap a).nch ≠ 0

theorem nestedLoop_sim (h : Inv s E) (ptr : Nat) : ∀ (fuel level : Nat) (p : Option Addr) (q : Option Nat) (la : Option (Nat × Addr))
    (lb : Option Entry), level + fuel = 8 → 0 < fuel → ParOk s level p q → LastOk s level la lb → PosKids s p →
    (∀ e, la = some e → (s.heap e.2).nch ≠ 0) →
    ∃ lv p' la', nestedLoop s ptr fuel level p la = some (lv, p', la') ∧ lv < 8 ∧
      ∃ q' lb', Tracker.nestedLoop (view s) ptr fuel level q lb = (lv, q', lb') ∧ ParOk s lv p' q' ∧ LastOk s lv la' lb' ∧
        PosKids s p' := by
  intro fuel
  induction fuel with
  | zero => intro level p q la lb _ h0; omega
  | succ fuel ih =>
    intro level p q la lb hlf _ hp hla hpk hlk
    rw [nestedLoop, Tracker.nestedLoop, view_lv, findLe_view]
    cases hf : findLe (s.lv level) ptr with
    | none =>
      dsimp only [Option.map_none]
      exact ⟨level, p, la, rfl, by omega, q, lb, rfl, hp, hla, hpk⟩
    | some e =>
      obtain ⟨k, a⟩ := e
      have hm := findLe_mem hf
      dsimp only [Option.map_some]
      rw [h.load hm]
      dsimp only
      have hst : (ent s.heap (k, a)).stop = word (k + (s.heap a).size) := rfl
      have hnc : (ent s.heap (k, a)).nch = (s.heap a).nch := rfl
      rw [hst, hnc]
      by_cases h1 : ptr < word (k + (s.heap a).size) ∧ (s.heap a).nch ≠ 0
      · rw [if_pos h1, if_pos h1]
        by_cases h2 : level = 7
        · rw [if_pos h2, if_pos h2]
          exact ⟨level, p, some (k, a), rfl, by omega, q, _, rfl, hp, ⟨rfl, ⟨level, hm⟩, fun h3 => absurd h3 h1.2⟩, hpk⟩
        · rw [if_neg h2, if_neg h2]
          exact ih (level + 1) (some a) (some k) (some (k, a)) _ (by omega) (by omega) ⟨level, rfl, hm⟩
            ⟨rfl, ⟨level, hm⟩, fun h3 => absurd h3 h1.2⟩ (fun a' ha' => by cases ha'; exact h1.2)
            (fun e he => by cases he; exact h1.2)
      · rw [if_neg h1, if_neg h1]
        exact ⟨level, p, some (k, a), rfl, by omega, q, _, rfl, hp, ⟨rfl, ⟨level, hm⟩, fun _ => hm⟩, hpk⟩

/-- What `mostNested` finds in memory, and what it finds among the regions. -/
theorem mostNested_sim (h : Inv s E) (ptr : Nat) (nc : Bool) :
    (mostNested s ptr nc = some none ∧ Tracker.mostNested (view s) ptr nc = none) ∨
    ∃ lv p a q, mostNested s ptr nc = some (some (lv, p, a)) ∧ lv < 8 ∧
      Tracker.mostNested (view s) ptr nc = some (lv, q, ent s.heap (ptr, a)) ∧ ParOk s lv p q ∧ PosKids s p ∧
      (∃ l, (ptr, a) ∈ s.lv l) ∧ ((s.heap a).nch = 0 → (ptr, a) ∈ s.lv lv) ∧ (nc = true → (s.heap a).nch = 0) := by
  obtain ⟨lv, p, la, h1, h2, q, lb, h3, h4, h5, h6⟩ := nestedLoop_sim h ptr 8 0 none none none none rfl (by omega) trivial trivial
    (fun _ h => by cases h) (fun _ h => by cases h)
  rw [mostNested, Tracker.mostNested, h1, h3]
  match la, lb, h5 with
  | none, none, _ => exact .inl ⟨rfl, rfl⟩
  | some (k, a), some f, h5 =>
    obtain ⟨h7, ⟨l, h8⟩, h9⟩ := h5
    subst h7
    dsimp only
    have hk : (ent s.heap (k, a)).key = k := rfl
    have hn : (ent s.heap (k, a)).nch = (s.heap a).nch := rfl
    rw [hk, hn, h.load h8]
    by_cases h10 : k ≠ ptr
    · rw [if_pos h10, if_pos h10]
      exact .inl ⟨rfl, rfl⟩
    · rw [if_neg h10, if_neg h10]
      have h10' : k = ptr := Decidable.of_not_not h10
      subst h10'
      dsimp only
      by_cases h11 : nc = true ∧ (s.heap a).nch > 0
      · rw [if_pos h11, if_pos h11]
        exact .inl ⟨rfl, rfl⟩
      · rw [if_neg h11, if_neg h11]
        refine .inr ⟨lv, p, a, q, rfl, h2, rfl, h4, h6, ⟨l, h8⟩, h9, fun h12 => ?_⟩
        exact Nat.eq_zero_of_not_pos fun h13 => h11 ⟨h12, h13⟩

theorem ParOk.mono {s s' : St} {level : Nat} {p : Option Addr} {q : Option Nat} (h : ParOk s level p q)
    (hm : ∀ l, level = l + 1 → s'.lv l = s.lv l) : ParOk s' level p q := by
  match p, q, h with
  | none, none, _ => trivial
  | some a, some k, ⟨l, h1, h2⟩ => exact ⟨l, h1, by rw [hm l h1]; exact h2⟩

theorem incr_sim (h : Inv s E) {level : Nat} {p : Option Addr} {q : Option Nat} (hp : ParOk s level p q) :
    ∃ s', incr s p = some s' ∧ Inv s' E ∧ view s' = Tracker.bumpParent (view s) level q (· + 1) ∧ s'.lv = s.lv := by
  match p, q, hp with
  | none, none, _ => exact ⟨s, rfl, h, rfl, rfl⟩
  | some a, some k, ⟨l, h1, h2⟩ =>
    subst h1
    rw [incr, h.load h2]
    exact h.kids h2 (· + 1)

theorem decr_sim (h : Inv s E) {level : Nat} {p : Option Addr} {q : Option Nat} (hp : ParOk s level p q) (hk : PosKids s p) :
    ∃ s', decr s p = some s' ∧ Inv s' E ∧ view s' = Tracker.bumpParent (view s) level q (· - 1) ∧ s'.lv = s.lv := by
  match p, q, hp with
  | none, none, _ => exact ⟨s, rfl, h, rfl, rfl⟩
  | some a, some k, ⟨l, h1, h2⟩ =>
    subst h1
    rw [decr, h.load h2]
    dsimp only
    rw [if_neg (hk a rfl)]
    exact h.kids h2 (· - 1)

theorem take_lv (s : St) (x : Addr) (i : Info) : (newBlk s x i).lv = s.lv := rfl

theorem release_heap {s s' : St} {x : Addr} (h : release s x = some s') : s'.heap = s.heap := by
  unfold release at h
  split at h
  · cases h
    rfl
  · cases h

/-- `umfMemoryTrackerAddAtLevel`; `host`: all memory is there. Blocks in hand stay. -/
theorem addAtLevel_sim (h : Inv s E) {level : Nat} (hl : level < 8) {p : Option Addr} {q : Option Nat} (hp : ParOk s level p q)
    (pool ptr size : Nat) {g : Give} (hg : Honest g) (node : Bool) :
    ∃ s' r, addAtLevel s level pool ptr size p g node = some (s', r) ∧ Inv s' E ∧
      Tracker.addAtLevel (view s) level pool ptr size q ((g s.used).isSome && node) = (view s', r) ∧
      (r ≠ .success → s'.lv = s.lv ∧ ∀ a ∈ E, s'.heap a = s.heap a) := by
  rw [addAtLevel, Tracker.addAtLevel]
  cases hx : g s.used with
  | none => exact ⟨s, .outOfHostMemory, rfl, h, rfl, fun _ => ⟨rfl, fun _ _ => rfl⟩⟩
  | some x =>
    obtain ⟨h1, h2⟩ := h.take (hg _ _ hx) ⟨pool, size, 0⟩
    have hold : ∀ s', release (newBlk s x ⟨pool, size, 0⟩) x = some s' → ∀ a ∈ E, s'.heap a = s.heap a := by
      intro s' h3 a ha
      rw [release_heap h3]
      refine upd_ne _ _ fun h4 => ?_
      have := h.hand a ha
      rw [h4, hg _ _ hx] at this
      cases this
    dsimp only
    rw [if_pos hl]
    cases node with
    | false =>
      obtain ⟨s', h3, h4, h5, h6⟩ := h1.release
      rw [h3]
      exact ⟨s', .outOfHostMemory, rfl, h4, by simp [h5, h2], fun _ => ⟨h6, hold s' h3⟩⟩
    | true =>
      rw [if_neg (show ¬(true = false) by simp), if_neg (show ¬(((some x).isSome && true) = false) by simp), view_lv, hasKey_view,
        take_lv]
      by_cases hk : hasKey (s.lv level) ptr
      · rw [if_pos hk, if_pos hk]
        obtain ⟨s', h3, h4, h5, h6⟩ := h1.release
        rw [h3]
        exact ⟨s', .unknown, rfl, h4, by simp [h5, h2], fun _ => ⟨h6, hold s' h3⟩⟩
      · rw [if_neg hk, if_neg hk]
        have hk' : hasKey ((newBlk s x ⟨pool, size, 0⟩).lv level) ptr = false := by
          rw [take_lv]
          simpa using hk
        obtain ⟨h3, h4⟩ := h1.insert hl hk'
        have hp' : ParOk (setLevel (newBlk s x ⟨pool, size, 0⟩) level ((ptr, x) :: (newBlk s x ⟨pool, size, 0⟩).lv level)) level p q := by
          refine hp.mono fun l hl' => ?_
          rw [setLevel_lv, if_neg (by omega), take_lv]
        obtain ⟨s', h5, h6, h7, _⟩ := incr_sim h3 hp'
        rw [take_lv] at h5
        rw [h5]
        refine ⟨s', .success, rfl, h6, ?_, fun h => absurd rfl h⟩
        rw [h7, h4, h2, view_lv]
        have : ent (newBlk s x ⟨pool, size, 0⟩).heap (ptr, x) = ⟨ptr, pool, size, 0⟩ := by
          simp [ent, newBlk, upd_eq]
        rw [this]

theorem addLoop_sim (h : Inv s E) (ptr size : Nat) : ∀ (fuel level : Nat) (p : Option Addr) (q : Option Nat),
    level + fuel = 8 → 0 < fuel → ParOk s level p q →
    (addLoop s ptr size fuel level p = some .tooDeep ∧ Tracker.addLoop (view s) ptr size fuel level q = .tooDeep) ∨
    (addLoop s ptr size fuel level p = some .exceeds ∧ Tracker.addLoop (view s) ptr size fuel level q = .exceeds) ∨
    ∃ lv p' q', addLoop s ptr size fuel level p = some (.found lv p') ∧ lv < 8 ∧
      Tracker.addLoop (view s) ptr size fuel level q = .found lv q' ∧ ParOk s lv p' q' := by
  intro fuel
  induction fuel with
  | zero => intro level p q _ h0; omega
  | succ fuel ih =>
    intro level p q hlf _ hp
    rw [addLoop, Tracker.addLoop, view_lv, findLe_view]
    cases hf : findLe (s.lv level) ptr with
    | none =>
      dsimp only [Option.map_none]
      exact .inr (.inr ⟨level, p, q, rfl, by omega, rfl, hp⟩)
    | some e =>
      obtain ⟨k, a⟩ := e
      have hm := findLe_mem hf
      dsimp only [Option.map_some]
      rw [h.load hm]
      dsimp only
      have hst : (ent s.heap (k, a)).stop = word (k + (s.heap a).size) := rfl
      have hnc : (ent s.heap (k, a)).nch = (s.heap a).nch := rfl
      rw [hst, hnc]
      by_cases h1 : ptr < word (k + (s.heap a).size)
      · rw [if_pos h1, if_pos h1]
        by_cases h2 : level = 7
        · rw [if_pos h2, if_pos h2]
          exact .inl ⟨rfl, rfl⟩
        · rw [if_neg h2, if_neg h2]
          by_cases h3 : word (ptr + size) > word (k + (s.heap a).size)
          · rw [if_pos h3, if_pos h3]
            exact .inr (.inl ⟨rfl, rfl⟩)
          · rw [if_neg h3, if_neg h3]
            by_cases h4 : (s.heap a).nch ≠ 0
            · rw [if_pos h4, if_pos h4]
              exact ih (level + 1) (some a) (some k) (by omega) (by omega) ⟨level, rfl, hm⟩
            · rw [if_neg h4, if_neg h4]
              exact .inr (.inr ⟨level + 1, some a, some k, rfl, by omega, rfl, ⟨level, rfl, hm⟩⟩)
      · rw [if_neg h1, if_neg h1]
        exact .inr (.inr ⟨level, p, q, rfl, by omega, rfl, hp⟩)

theorem add_sim (h : Inv s E) (pool ptr size : Nat) {g : Give} (hg : Honest g) (node : Bool) :
    ∃ s' r, add s pool ptr size g node = some (s', r) ∧ Inv s' E ∧
      Tracker.add (view s) pool ptr size ((g s.used).isSome && node) = (view s', r) := by
  rw [add, Tracker.add]
  rcases addLoop_sim h ptr size 8 0 none none rfl (by omega) trivial with ⟨h1, h2⟩ | ⟨h1, h2⟩ | ⟨lv, p, q, h1, hlt, h2, h3⟩
  · rw [h1, h2]
    exact ⟨s, _, rfl, h, rfl⟩
  · rw [h1, h2]
    exact ⟨s, _, rfl, h, rfl⟩
  · rw [h1, h2]
    obtain ⟨s', r, h4, h5, h6, _⟩ := addAtLevel_sim h hlt h3 pool ptr size hg node
    exact ⟨s', r, h4, h5, h6⟩

theorem remove_sim (h : Inv s E) (ptr : Nat) :
    ∃ s' r, remove s ptr = some (s', r) ∧ Inv s' E ∧ Tracker.remove (view s) ptr = (view s', r) := by
  rw [remove, Tracker.remove]
  rcases mostNested_sim h ptr true with ⟨h1, h2⟩ | ⟨lv, p, a, q, h1, hlt, h2, h3, h4, _, h5, h6⟩
  · rw [h1, h2]
    exact ⟨s, _, rfl, h, rfl⟩
  · rw [h1, h2]
    dsimp only
    have hm := h5 (h6 rfl)
    obtain ⟨s1, h7, h8, h9, h10, h11⟩ := h.erase hm
    rw [h7]
    dsimp only
    have hp' : ParOk s1 lv p q := h3.mono fun l hl => h11 l (by omega)
    have hk' : PosKids s1 p := fun b hb => by rw [h10]; exact h4 b hb
    obtain ⟨s2, h12, h13, h14, _⟩ := decr_sim h8 hp' hk'
    rw [h12]
    dsimp only
    obtain ⟨s3, h15, h16, h17, _⟩ := h13.release
    rw [h15]
    exact ⟨s3, .success, rfl, h16, by rw [h17, h14, h9]⟩

theorem infoLoop_sim (h : Inv s E) (ptr : Nat) : ∀ (fuel level : Nat) (b : Option (Nat × Addr)), level + fuel = 8 → 0 < fuel →
    (∀ e, b = some e → ∃ l, e ∈ s.lv l) →
    ∃ b', infoLoop s ptr fuel level b = some b' ∧ (∀ e, b' = some e → ∃ l, e ∈ s.lv l) ∧
      Tracker.infoLoop (view s) ptr fuel level (b.map (ent s.heap)) = b'.map (ent s.heap) := by
  intro fuel
  induction fuel with
  | zero => intro level b _ h0; omega
  | succ fuel ih =>
    intro level b hlf _ hb
    rw [infoLoop, Tracker.infoLoop, view_lv, findLe_view]
    cases hf : findLe (s.lv level) ptr with
    | none => exact ⟨b, rfl, hb, rfl⟩
    | some e =>
      obtain ⟨k, a⟩ := e
      have hm := findLe_mem hf
      dsimp only [Option.map_some]
      rw [h.load hm]
      dsimp only
      have hst : (ent s.heap (k, a)).stop = word (k + (s.heap a).size) := rfl
      have hnc : (ent s.heap (k, a)).nch = (s.heap a).nch := rfl
      rw [hst, hnc]
      by_cases h1 : ptr < word (k + (s.heap a).size)
      · rw [if_pos h1, if_pos h1]
        by_cases h2 : (s.heap a).nch = 0 ∨ level = 7
        · rw [if_pos h2, if_pos h2]
          exact ⟨some (k, a), rfl, fun e he => by cases he; exact ⟨level, hm⟩, rfl⟩
        · rw [if_neg h2, if_neg h2]
          exact ih (level + 1) (some (k, a)) (by omega) (by omega) (fun e he => by cases he; exact ⟨level, hm⟩)
      · rw [if_neg h1, if_neg h1]
        exact ⟨b, rfl, hb, rfl⟩

theorem getAllocInfo_sim (h : Inv s E) (ptr : Nat) : getAllocInfo s ptr = some (Tracker.getAllocInfo (view s) ptr) := by
  rw [getAllocInfo, Tracker.getAllocInfo]
  by_cases h0 : ptr = 0
  · rw [if_pos h0, if_pos h0]
  · rw [if_neg h0, if_neg h0]
    obtain ⟨b, h1, h2, h3⟩ := infoLoop_sim h ptr 8 0 none rfl (by omega) (fun _ h => by cases h)
    rw [h1]
    rw [Option.map_none] at h3
    rw [h3]
    match b, h2 with
    | none, _ => rfl
    | some (k, a), h2 =>
      obtain ⟨l, h4⟩ := h2 _ rfl
      dsimp only
      rw [h.load h4]
      rfl

theorem alloc_sim (h : Inv s []) (pool size : Nat) (up : UpAlloc) {g : Give} (hg : Honest g) (node : Bool) :
    ∃ s' r, trackingAlloc s pool size up g node = some (s', r) ∧ Inv s' [] ∧
      Tracker.trackingAlloc (view s) pool size up ((g s.used).isSome && node) = (view s', r) := by
  unfold trackingAlloc Tracker.trackingAlloc
  match up with
  | .fail c => exact ⟨s, _, rfl, h, rfl⟩
  | .ok ptr =>
    dsimp only
    by_cases h0 : ptr = 0
    · rw [if_pos h0, if_pos h0]
      exact ⟨s, _, rfl, h, rfl⟩
    · rw [if_neg h0, if_neg h0]
      obtain ⟨s', r, h1, h2, h3⟩ := add_sim h pool ptr size hg node
      rw [h1, h3]
      cases r <;> exact ⟨s', _, rfl, h2, rfl⟩

theorem free_sim (h : Inv s []) (pool ptr size : Nat) (up : Option Nat) {g : Give} (hg : Honest g) (node : Bool) :
    ∃ s' r host, trackingFree s pool ptr size up g node = some (s', r) ∧ Inv s' [] ∧
      Tracker.trackingFree (view s) pool ptr size up host = (view s', r) ∧
      ((∀ u, (g u).isSome = true) → node = true → host = true) := by
  unfold trackingFree
  have : ∃ s1 r1, (if ptr = 0 then some (s, Res.unknown) else remove s ptr) = some (s1, r1) ∧ Inv s1 [] ∧
      (if ptr = 0 then (view s, Res.unknown) else Tracker.remove (view s) ptr) = (view s1, r1) := by
    by_cases h0 : ptr = 0
    · rw [if_pos h0, if_pos h0]
      exact ⟨s, _, rfl, h, rfl⟩
    · rw [if_neg h0, if_neg h0]
      exact remove_sim h ptr
  obtain ⟨s1, r1, h1, h2, h3⟩ := this
  rw [h1]
  dsimp only
  match up with
  | none =>
    refine ⟨s1, .success, true, rfl, h2, ?_, fun _ _ => rfl⟩
    unfold Tracker.trackingFree
    rw [h3]
  | some c =>
    dsimp only
    by_cases h4 : r1 = .success
    · rw [if_pos h4]
      obtain ⟨s2, r2, h5, h6, h7⟩ := add_sim h2 pool ptr size hg node
      rw [h5]
      refine ⟨s2, .upstream c, ((g s1.used).isSome && node), rfl, h6, ?_, fun h8 h9 => by rw [h8, h9]; rfl⟩
      unfold Tracker.trackingFree
      rw [h3]
      dsimp only
      rw [if_pos h4, h7]
    · rw [if_neg h4]
      refine ⟨s1, .upstream c, true, rfl, h2, ?_, fun _ _ => rfl⟩
      unfold Tracker.trackingFree
      rw [h3]
      dsimp only
      rw [if_neg h4]

theorem bail_sim {s1 : St} {x : Addr} (h : Inv s1 (x :: E)) (r : Res) (b : Bool) :
    ∃ s', bail s1 x r b = some (s', r, b) ∧ Inv s' E ∧ view s' = view s1 ∧ s'.lv = s1.lv := by
  obtain ⟨s', h1, h2, h3, h4⟩ := h.release
  exact ⟨s', by rw [bail, h1]; rfl, h2, h3, h4⟩

end Verif.TrkMem
