import Verif.CpuProv.InitLemmas
import Mathlib.Data.List.Perm.Basic
/-!
# C68: creation and destruction of the OS, file, devdax and fixed providers
-/
namespace Verif.CpuProv
open Verif.Policy

theorem unmapLoop_eq (n : Nat) (fuel : Nat) (maps : List Nat) (key : Nat) (nd : maps.Nodup)
    (hk : ∀ a ∈ maps, key < a) (hf : maps.length ≤ fuel) :
    ∃ L : List Nat, L.Perm maps ∧ unmapLoop n maps key fuel = (L.map Slot.mapping).map (Ev.rm n) := by
  induction fuel generalizing maps key with
  | zero =>
    have : maps = [] := by cases maps <;> simp_all
    subst this
    exact ⟨[], List.Perm.refl _, rfl⟩
  | succ fuel ih =>
    have hfil : (maps.filter fun a => decide (key < a)) = maps := by
      rw [List.filter_eq_self]; intro a ha; simpa using hk a ha
    unfold unmapLoop
    cases hn : nextAbove maps key with
    | none =>
      rw [nextAbove, hfil, List.min?_eq_none_iff] at hn
      subst hn
      exact ⟨[], List.Perm.refl _, rfl⟩
    | some a =>
      rw [nextAbove, hfil, List.min?_eq_some_iff] at hn
      obtain ⟨ha, hmin⟩ := hn
      have hlen := List.length_erase_of_mem ha
      have hpos : 0 < maps.length := List.length_pos_of_mem ha
      obtain ⟨L, hL, he⟩ := ih (maps.erase a) a (nd.erase a)
        (by
          intro b hb
          have hb' := (List.Nodup.mem_erase_iff nd).1 hb
          have := hmin b hb'.2
          omega)
        (by omega)
      refine ⟨a :: L, ?_, ?_⟩
      · exact (List.Perm.cons a hL).trans (List.perm_cons_erase ha).symm
      · dsimp only; rw [he]; rfl

/-- The loop of `file_finalize` unmaps every recorded mapping once. -/
theorem run_unmapLoop (S : Slot → Bool) (n : Nat) (maps : List Nat) (nd : maps.Nodup) (hk : ∀ a ∈ maps, 0 < a)
    (hS : ∀ a ∈ maps, S (.mapping a) = true) (T : Slot → Bool) (hT1 : ∀ a ∈ maps, T (.mapping a) = false)
    (hT2 : ∀ x, (∀ a ∈ maps, x ≠ .mapping a) → T x = S x) :
    run S (unmapLoop n maps 0 (maps.length + 1)) = some T := by
  obtain ⟨L, hL, he⟩ := unmapLoop_eq n (maps.length + 1) maps 0 nd hk (by omega)
  have ndL : L.Nodup := hL.nodup_iff.2 nd
  have hm : ∀ x, x ∈ L.map Slot.mapping ↔ ∃ a ∈ maps, x = .mapping a := by
    intro x
    simp only [List.mem_map]
    constructor
    · rintro ⟨a, ha, rfl⟩; exact ⟨a, hL.mem_iff.1 ha, rfl⟩
    · rintro ⟨a, ha, rfl⟩; exact ⟨a, hL.mem_iff.2 ha, rfl⟩
  rw [he, run_rms S n _ (List.Pairwise.map Slot.mapping (fun a b h => by simpa using h) ndL)]
  · congr 1; funext x
    by_cases hx : x ∈ L.map Slot.mapping
    · rw [if_pos hx]
      obtain ⟨a, ha, rfl⟩ := (hm x).1 hx
      exact (hT1 a ha).symm
    · rw [if_neg hx, hT2 x]
      intro a ha hxa
      exact hx ((hm x).2 ⟨a, ha, hxa⟩)
  · intro s hs
    obtain ⟨a, ha, rfl⟩ := (hm s).1 hs
    exact hS a ha

theorem finalize_spec (n : Nat) (p : Prov) (h : WF p) :
    run (owns p) (finalize n p ++ [.rm n .handle]) = some (leaves p) := by
  cases p with
  | os mode len parts strBuf fd shm =>
    obtain ⟨hp, hfd, _⟩ := h
    simp only [finalize, osFinalize, fdPos_eq fd hfd]
    by_cases e1 : fd.isSome = true <;> by_cases e2 : strBuf = true <;> by_cases e3 : mode = .split
    all_goals
      simp only [e3, decide_true, decide_false] at hp
      subst hp
      simp only [e1, e2, if_true, if_false, List.append_nil, List.nil_append, List.cons_append,
        List.append_assoc, Bool.false_eq_true]
      simp only [run, run1, owns, e1, if_true, if_false, Option.bind_some, reduceCtorEq, Bool.false_eq_true]
      rw [run_append, run_freeBitmaps _ n len (by intro i hi; simp [owns, hi]) (by simp [owns])]
      simp [run, run1, owns, isBitmap, e2, e3]
      funext x; cases x <;> simp [leaves, owns, isBitmap, e1, e2, e3]
  | file c maps =>
    obtain ⟨hc, nd, hpos⟩ := h
    simp only [finalize, fileFinalize, List.append_assoc]
    rw [run_append, run_unmapLoop (owns (.file c maps)) n maps nd hpos (by intro a ha; simp [owns, ha])
      (owns (.file c [])) (by intro a ha; simp [owns])
      (by
        intro x hx
        cases x <;> simp [owns]
        rename_i a
        intro ha
        exact hx a ha rfl), Option.bind_some]
    simp only [List.cons_append, List.nil_append]
    simp only [run, run1, owns, if_true, if_false, Option.bind_some, reduceCtorEq]
    rw [run_append, run_coarseDelete _ n c hc (by intro x; cases x <;> simp [coarseOwns])]
    simp [run, run1, coarseOwns]
    funext x; cases x <;> simp [leaves, coarseOwns]
  | devdax c =>
    have hc : c.Ok := h
    simp only [finalize, devdaxFinalize, List.append_assoc, List.cons_append, List.nil_append]
    simp only [run, run1, owns, if_true, if_false, Option.bind_some, reduceCtorEq, decide_true]
    rw [run_append, run_coarseDelete _ n c hc (by intro x; cases x <;> simp [coarseOwns])]
    simp [run, run1, coarseOwns]
    funext x; cases x <;> simp [leaves, coarseOwns]
  | fixed c =>
    have hc : c.Ok := h
    simp only [finalize, fixedFinalize, List.append_assoc]
    rw [run_append, run_coarseDelete _ n c hc (by intro x; cases x <;> simp [coarseOwns, owns])]
    simp [run, run1, owns, coarseOwns]
    funext x; cases x <;> simp [leaves, coarseOwns, owns]

theorem init_spec (n : Nat) (q : Req) (hq : q.Sound) : InitOk (init n q) := by
  cases q with
  | os P i a => exact os_spec n P i a hq
  | file i a => exact file_spec n i a hq
  | devdax i a => exact devdax_spec n i a hq.1 hq.2
  | fixed a => exact fixed_spec n a hq

/-! ## Every event is one of the provider itself -/

theorem of_bitmaps (n m : Nat) : (∀ e ∈ mkBitmaps n m, e.of n) ∧ ∀ e ∈ rmBitmaps n m, e.of n := by
  constructor <;> intro e he
  · simp only [mkBitmaps, List.mem_map] at he; obtain ⟨_, _, rfl⟩ := he; rfl
  · simp only [rmBitmaps, List.mem_map] at he; obtain ⟨_, _, rfl⟩ := he; rfl

theorem of_append {n : Nat} {a b : List Ev} (ha : ∀ e ∈ a, e.of n) (hb : ∀ e ∈ b, e.of n) : ∀ e ∈ a ++ b, e.of n := by
  intro e he; rcases List.mem_append.1 he with h | h
  · exact ha e h
  · exact hb e h

theorem of_cons {n : Nat} {x : Ev} {b : List Ev} (ha : x.of n) (hb : ∀ e ∈ b, e.of n) : ∀ e ∈ x :: b, e.of n := by
  intro e he; rcases List.mem_cons.1 he with h | h
  · subst h; exact ha
  · exact hb e h

theorem of_ite {n : Nat} {c : Prop} [Decidable c] {a b : List Ev} (ha : ∀ e ∈ a, e.of n) (hb : ∀ e ∈ b, e.of n) :
    ∀ e ∈ (if c then a else b), e.of n := by
  split_ifs <;> assumption

theorem of_ite3 {n : Nat} {c : Prop} [Decidable c] {x y : Res × List Ev × Option Prov} (hx : ∀ e ∈ x.2.1, e.of n)
    (hy : ∀ e ∈ y.2.1, e.of n) : ∀ e ∈ (if c then x else y).2.1, e.of n := by
  split_ifs <;> assumption

theorem of_initNodeset (n : Nat) (list : List Nat) (ded : Bool) (a : OsAns) :
    ∀ e ∈ (initNodeset n list ded a).2.1, e.of n := by
  unfold initNodeset
  dsimp only
  split
  · simp
  · split
    · split <;> simp [Ev.of]
    · split
      · exact of_cons rfl (of_append (of_append (of_bitmaps n _).1 (of_bitmaps n _).2) (of_ite (by simp) (by simp [Ev.of])))
      · split
        · exact of_cons rfl (of_append (of_append (of_bitmaps n _).1 (of_bitmaps n _).2) (by simp [Ev.of]))
        · exact of_cons rfl (of_bitmaps n _).1

theorem of_osTranslate (n P : Nat) (i : OsIn) (a : OsAns) : ∀ e ∈ (osTranslate n P i a).2.1, e.of n := by
  unfold osTranslate
  split
  · simp
  · split
    · simp
    · dsimp only
      split
      · exact of_initNodeset n _ _ a
      · split
        · exact of_append (of_initNodeset n _ _ a) (by simp [Ev.of])
        · exact of_initNodeset n _ _ a

theorem of_createFd (n : Nat) (i : OsIn) (a : OsAns) : ∀ e ∈ (createFd n i a).2.1, e.of n := by
  unfold createFd
  split
  · simp
  · split
    · split
      · simp
      · split
        · simp
        · split <;> simp [Ev.of]
    · split
      · simp
      · split
        · simp [Ev.of]
        · split <;> simp [Ev.of]

theorem of_freeBitmaps (n len : Nat) : ∀ e ∈ freeBitmaps n len, e.of n :=
  of_append (of_bitmaps n len).2 (by simp [Ev.of])

theorem of_osInit (n P : Nat) (i : OsIn) (a : OsAns) : ∀ e ∈ (osInit n P i a).2.1, e.of n := by
  have h0 := of_append (n := n) (a := [.mk n .prov, .mk n .topo, .mk n .offsets]) (by simp [Ev.of]) (of_osTranslate n P i a)
  have hu : ∀ e ∈ [Ev.rm n .offsets, .rm n .topo, .rm n .prov], e.of n := by simp [Ev.of]
  unfold osInit
  dsimp only
  split
  · simp
  split
  · simp
  split
  · simp [Ev.of]
  split
  · simp [Ev.of]
  split
  · simp [Ev.of]
  split
  · exact of_append h0 hu
  split
  · exact of_append (of_append (of_append h0 (of_createFd n i a)) (of_freeBitmaps n _)) hu
  split
  · exact of_append (of_append (of_append h0 (of_createFd n i a)) (of_freeBitmaps n _)) hu
  · exact of_append (of_append (of_append h0 (of_createFd n i a)) (of_ite (by simp [Ev.of]) (by simp)))
      (of_ite (by simp [Ev.of]) (by simp))

theorem of_fileInit (n : Nat) (i : FileIn) (a : FileAns) : ∀ e ∈ (fileInit n i a).2.1, e.of n := by
  have h0 := of_append (of_append (n := n) (a := [.mk n .prov, .mk n .fd]) (by simp [Ev.of]) (of_fileTrial n i a))
    (of_coarseNew n a.coarse)
  have hu : ∀ e ∈ [Ev.rm n .fd, .rm n .prov], e.of n := by simp [Ev.of]
  unfold fileInit
  split
  · simp
  dsimp only
  split
  · simp
  split
  · simp [Ev.of]
  split
  · simp [Ev.of]
  split
  · simp [Ev.of]
  split
  · simp [Ev.of]
  split
  · exact of_append h0 hu
  split
  · exact of_append (of_append h0 (of_coarseDelete n _)) hu
  split
  · exact of_append (of_append (of_append h0 (by simp [Ev.of])) (of_coarseDelete n _)) hu
  split
  · exact of_append (of_append (of_append h0 (by simp [Ev.of])) (of_coarseDelete n _)) hu
  · exact of_append h0 (by simp [Ev.of])

theorem of_devdaxInit (n : Nat) (i : DevdaxIn) (a : DevdaxAns) : ∀ e ∈ (devdaxInit n i a).2.1, e.of n := by
  have h0 : ∀ e ∈ (Ev.mk n .prov :: (coarseNew n a.coarse).2), e.of n := of_cons rfl (of_coarseNew n a.coarse)
  have hu : ∀ c, ∀ e ∈ coarseDelete n c ++ [Ev.rm n .prov], e.of n := fun c =>
    of_append (of_coarseDelete n c) (by simp [Ev.of])
  unfold devdaxInit
  split
  · simp
  dsimp only
  rename_i path _
  have h1 := of_append h0 (of_devdaxOpen n path a)
  have h2 := of_append h1 (b := [.mk n (.mapping 0), .rm n .fd]) (by simp [Ev.of])
  have h3 := of_append (of_append h2 (of_addFixed n a.add)) (b := [.rm n (.mapping 0)]) (by simp [Ev.of])
  refine of_ite3 (by simp) (of_ite3 (by simp) (of_ite3 (of_append h0 (by simp [Ev.of])) (of_ite3 (of_append h0 (hu _))
    (of_ite3 (of_append h0 (hu _)) (of_ite3 (of_append h1 (hu _))
    (of_ite3 (of_append (of_append h1 (by simp [Ev.of])) (hu _)) (of_ite3 (of_append (of_append h2 (by simp [Ev.of])) (hu _))
    (of_ite3 (of_append h3 (hu _)) (of_ite3 (of_append h3 (hu _)) ?_)))))))))
  exact of_append (of_append h2 (of_addFixed n a.add)) (by simp [Ev.of])

theorem of_fixedInit (n : Nat) (a : FixedAns) : ∀ e ∈ (fixedInit n a).2.1, e.of n := by
  have h0 : ∀ e ∈ (Ev.mk n .prov :: (coarseNew n a.coarse).2), e.of n := of_cons rfl (of_coarseNew n a.coarse)
  unfold fixedInit
  dsimp only
  split
  · simp
  split
  · exact of_append h0 (by simp [Ev.of])
  split
  · exact of_append (of_append (of_append h0 (of_addFixed n a.add)) (of_coarseDelete n _)) (by simp [Ev.of])
  · exact of_append h0 (of_addFixed n a.add)

theorem of_init (n : Nat) (q : Req) : ∀ e ∈ (init n q).2.1, e.of n := by
  cases q with
  | os P i a => exact of_osInit n P i a
  | file i a => exact of_fileInit n i a
  | devdax i a => exact of_devdaxInit n i a
  | fixed a => exact of_fixedInit n a

theorem of_unmapLoop (n : Nat) (fuel : Nat) (maps : List Nat) (key : Nat) :
    ∀ e ∈ unmapLoop n maps key fuel, e.of n := by
  induction fuel generalizing maps key with
  | zero => simp [unmapLoop]
  | succ fuel ih =>
    unfold unmapLoop
    split
    · simp
    · exact of_cons rfl (ih _ _)

theorem of_finalize (n : Nat) (p : Prov) : ∀ e ∈ finalize n p, e.of n := by
  cases p with
  | os mode len parts strBuf fd shm =>
    exact of_append (of_append (of_append (of_append (of_append (of_ite (by simp [Ev.of]) (by simp)) (by simp [Ev.of]))
      (of_freeBitmaps n len)) (of_ite (by simp [Ev.of]) (by simp))) (of_ite (by simp [Ev.of]) (by simp))) (by simp [Ev.of])
  | file c maps =>
    exact of_append (of_append (of_append (of_unmapLoop n _ _ _) (by simp [Ev.of])) (of_coarseDelete n c)) (by simp [Ev.of])
  | devdax c => exact of_append (of_append (by simp [Ev.of]) (of_coarseDelete n c)) (by simp [Ev.of])
  | fixed c => exact of_append (of_coarseDelete n c) (by simp [Ev.of])

/-! ## The property -/

theorem fresh_put {st : State} {n : Nat} (h : Fresh st n) : st = put st n fun _ => false := by
  have : st n = fun _ => false := funext h
  rw [← this, put_self]

/-- Creation: with a new number, it either fails, with an error, and then the same objects exist as before, or it succeeds, and
then there is a complete provider, exactly its objects are new, and its first allocation finds the partitions. -/
theorem C68_create_partial {st : State} {n : Nat} {mem : Bool} {q : Req} (hf : Fresh st n) (hq : q.Sound) :
    ((create n mem q).1 ≠ .success ∧ (create n mem q).2.2 = none ∧ apply st (create n mem q).2.1 = some st) ∨
    ∃ p, (create n mem q).1 = .success ∧ (create n mem q).2.2 = some ⟨n, some p⟩ ∧ WF p ∧ osFirstBind p = [] ∧
      apply st (create n mem q).2.1 = some (put st n (owns p)) := by
  obtain ⟨hok, herr⟩ := init_spec n q hq
  have hof := of_init n q
  unfold create
  cases mem with
  | false => left; simp [apply]
  | true =>
  have hst : run (fun _ => false) [.mk n .handle] = some hnd := by
    simp only [run, run1, Bool.false_eq_true, if_false, Option.bind_some]
    congr 1
  have hrun : ∀ es, run (fun _ => false) (.mk n .handle :: es) = run hnd es := by
    intro es
    have := run_append (fun _ => false) [.mk n .handle] es
    rw [hst] at this
    exact this
  simp only [Bool.true_eq_false, if_false]
  by_cases h : (init n q).1 ≠ .success
  · left
    rw [if_pos h]
    refine ⟨h, rfl, ?_⟩
    have e := fresh_put hf
    have hof' : ∀ e ∈ Ev.mk n .handle :: ((init n q).2.1 ++ [.rm n .handle]), e.of n :=
      of_cons (show n = n from rfl) (of_append hof (by simp [Ev.of]))
    have hend : run hnd [.rm n .handle] = some fun _ => false := by
      simp only [run, run1, hnd, decide_true, if_true, Option.bind_some]
      congr 1; funext x; cases x <;> simp
    calc apply st (.mk n .handle :: (init n q).2.1 ++ [.rm n .handle])
        = apply (put st n fun _ => false) (.mk n .handle :: ((init n q).2.1 ++ [.rm n .handle])) := by
          rw [← e]; rfl
      _ = some (put st n fun _ => false) := by
        rw [apply_put st n _ hof', hrun, run_append, herr h, Option.bind_some, hend]; rfl
      _ = some st := by rw [← e]
  · right
    obtain ⟨p, hp, hw, hr⟩ := hok (not_not.1 h)
    rw [if_neg h]
    refine ⟨p, rfl, by rw [hp], hw, ?_, ?_⟩
    · cases p with
      | os mode len parts strBuf fd shm =>
        obtain ⟨h1, _⟩ := hw
        cases mode <;> simp [osFirstBind]
        have h1' : parts = true := by simpa using h1
        simp [h1']
      | _ => rfl
    · have e := fresh_put hf
      have hof' : ∀ e ∈ Ev.mk n .handle :: (init n q).2.1, e.of n := of_cons (show n = n from rfl) hof
      calc apply st (.mk n .handle :: (init n q).2.1) = apply (put st n fun _ => false) (.mk n .handle :: (init n q).2.1) := by
            rw [← e]
        _ = _ := by rw [apply_put st n _ hof', hrun, hr]; rfl

/-- Destruction of a complete provider is defined and leaves nothing of it but, for a shared OS provider, the descriptor and the
named file. -/
theorem C68_destroy_partial {st : State} {n : Nat} {p : Prov} (hw : WF p) (h : ∀ s, st n s = owns p s) :
    apply st (destroy ⟨n, some p⟩) = some (put st n (leaves p)) := by
  have e : st = put st n (owns p) := by
    have : st n = owns p := funext h
    rw [← this, put_self]
  have hr := finalize_spec n p hw
  calc apply st (destroy ⟨n, some p⟩) = apply (put st n (owns p)) (finalize n p ++ [.rm n .handle]) := by rw [← e]; rfl
    _ = _ := by
      rw [apply_put st n _ (of_append (of_finalize n p) (by simp [Ev.of])), hr]; rfl

/-- What the histories keep. -/
structure Inv (st : State) (hs : List Handle) (ds : List (Nat × Prov)) : Prop where
  nd : (hs.map Handle.n).Nodup
  dis : ∀ h ∈ hs, ∀ d ∈ ds, d.1 ≠ h.n
  live : ∀ h ∈ hs, ∃ p, h.priv = some p ∧ WF p ∧ ∀ s, st h.n s = owns p s
  dead : ∀ d ∈ ds, WF d.2 ∧ ∀ s, st d.1 s = leaves d.2 s
  none : ∀ n, (∀ h ∈ hs, h.n ≠ n) → (∀ d ∈ ds, d.1 ≠ n) → Fresh st n

theorem put_eq (st : State) (n : Nat) (S : Slot → Bool) (x : Slot) : put st n S n x = S x := by simp [put]
theorem put_ne (st : State) {n m : Nat} (S : Slot → Bool) (h : m ≠ n) (x : Slot) : put st n S m x = st m x := by
  simp [put, h]

theorem uses_wf {p p' : Prov} (h : Uses p p') (hw : WF p) : WF p' := by
  cases h with
  | os => exact hw
  | file h1 h2 h3 => exact ⟨h1, h2, h3⟩
  | devdax h => exact h
  | fixed h => exact h

theorem hist_inv {st : State} {hs : List Handle} {ds : List (Nat × Prov)} (h : Hist st hs ds) : Inv st hs ds := by
  induction h with
  | init => exact ⟨by simp, by simp, by simp, by simp, fun _ _ _ _ => rfl⟩
  | @create st hs ds n mem q st' h _ hn hd hq hc ha ih =>
    rcases C68_create_partial (mem := mem) (ih.none n hn hd) hq with ⟨_, h0, _⟩ | ⟨p, _, hc', hw, _, ha'⟩
    · rw [h0] at hc; simp at hc
    · rw [hc'] at hc; cases hc
      rw [ha'] at ha; cases ha
      refine ⟨?_, ?_, ?_, ?_, ?_⟩
      · simp only [List.map_cons, List.nodup_cons, List.mem_map, not_exists, not_and]
        exact ⟨fun g hg => hn g hg, ih.nd⟩
      · intro g hg d hd'
        rcases List.mem_cons.1 hg with rfl | hg
        · exact hd d hd'
        · exact ih.dis g hg d hd'
      · intro g hg
        rcases List.mem_cons.1 hg with rfl | hg
        · exact ⟨p, rfl, hw, fun s => put_eq _ _ _ s⟩
        · obtain ⟨p', h1, h2, h3⟩ := ih.live g hg
          exact ⟨p', h1, h2, fun s => (put_ne _ _ (hn g hg) s).trans (h3 s)⟩
      · intro d hd'
        exact ⟨(ih.dead d hd').1, fun s => (put_ne _ _ (hd d hd') s).trans ((ih.dead d hd').2 s)⟩
      · intro m hm hm' s
        have : m ≠ n := fun e => hm ⟨n, some p⟩ (by simp) e.symm
        exact (put_ne _ _ this s).trans (ih.none m (fun g hg => hm g (by simp [hg])) hm' s)
  | @createFail st hs ds n mem q st' _ hn hd hq hc ha ih =>
    rcases C68_create_partial (mem := mem) (ih.none n hn hd) hq with ⟨_, _, ha'⟩ | ⟨p, _, hc', _⟩
    · rw [ha'] at ha; cases ha; exact ih
    · rw [hc'] at hc; simp at hc
  | @use st hs ds n p p' _ hu ih =>
    have hne : ∀ g ∈ hs, g.n ≠ n := by
      have := ih.nd
      simp only [List.map_cons, List.nodup_cons, List.mem_map, not_exists, not_and] at this
      exact this.1
    obtain ⟨p0, h1, h2, _⟩ := ih.live ⟨n, some p⟩ (by simp)
    cases h1
    refine ⟨ih.nd, ?_, ?_, ?_, ?_⟩
    · intro g hg d hd
      rcases List.mem_cons.1 hg with rfl | hg
      · exact ih.dis ⟨n, some p⟩ (by simp) d hd
      · exact ih.dis g (by simp [hg]) d hd
    · intro g hg
      rcases List.mem_cons.1 hg with rfl | hg
      · exact ⟨p', rfl, uses_wf hu h2, fun s => put_eq _ _ _ s⟩
      · obtain ⟨p1, e1, e2, e3⟩ := ih.live g (by simp [hg])
        exact ⟨p1, e1, e2, fun s => (put_ne _ _ (hne g hg) s).trans (e3 s)⟩
    · intro d hd
      exact ⟨(ih.dead d hd).1, fun s =>
        (put_ne _ _ (ih.dis ⟨n, some p⟩ (by simp) d hd) s).trans ((ih.dead d hd).2 s)⟩
    · intro m hm hm' s
      have : m ≠ n := fun e => hm ⟨n, some p'⟩ (by simp) e.symm
      refine (put_ne _ _ this s).trans (ih.none m ?_ hm' s)
      intro g hg
      rcases List.mem_cons.1 hg with rfl | hg
      · exact fun e => this e.symm
      · exact hm g (by simp [hg])
  | @swap st hs hs' ds _ hp ih =>
    refine ⟨(hp.map Handle.n).nodup_iff.1 ih.nd, fun g hg => ih.dis g (hp.mem_iff.2 hg),
      fun g hg => ih.live g (hp.mem_iff.2 hg), ih.dead, fun m hm => ih.none m fun g hg => hm g (hp.mem_iff.1 hg)⟩
  | @destroy st hs ds st' h p _ hpriv ha ih =>
    obtain ⟨p0, h1, h2, h3⟩ := ih.live h (by simp)
    rw [hpriv] at h1; cases h1
    have hh : h = ⟨h.n, some p⟩ := by cases h; simp at hpriv; rw [hpriv]
    have hd := C68_destroy_partial h2 h3
    rw [← hh, ha] at hd
    cases hd
    have hne : ∀ g ∈ hs, g.n ≠ h.n := by
      have := ih.nd
      simp only [List.map_cons, List.nodup_cons, List.mem_map, not_exists, not_and] at this
      exact this.1
    have hnd := ih.nd
    rw [List.map_cons, List.nodup_cons] at hnd
    refine ⟨hnd.2, ?_, ?_, ?_, ?_⟩
    · intro g hg d hd'
      rcases List.mem_cons.1 hd' with rfl | hd'
      · exact fun e => hne g hg e.symm
      · exact ih.dis g (by simp [hg]) d hd'
    · intro g hg
      obtain ⟨p1, e1, e2, e3⟩ := ih.live g (by simp [hg])
      exact ⟨p1, e1, e2, fun s => (put_ne _ _ (hne g hg) s).trans (e3 s)⟩
    · intro d hd'
      rcases List.mem_cons.1 hd' with rfl | hd'
      · exact ⟨h2, fun s => put_eq _ _ _ s⟩
      · exact ⟨(ih.dead d hd').1, fun s => (put_ne _ _ (ih.dis h (by simp) d hd') s).trans ((ih.dead d hd').2 s)⟩
    · intro m hm hm' s
      have hmn : m ≠ h.n := fun e => hm' (h.n, p) (by simp) e.symm
      refine (put_ne _ _ hmn s).trans (ih.none m ?_ (fun d hd' => hm' d (by simp [hd'])) s)
      intro g hg
      rcases List.mem_cons.1 hg with rfl | hg
      · exact fun e => hmn e.symm
      · exact hm g hg

/-- After every history exactly the objects of the live providers exist, and what the destroyed shared OS providers left. -/
theorem C68_live_partial {st : State} {hs : List Handle} {ds : List (Nat × Prov)} (h : Hist st hs ds) (n : Nat) (s : Slot) :
    st n s = true ↔ (∃ g ∈ hs, ∃ p, g = ⟨n, some p⟩ ∧ owns p s = true) ∨ ∃ d ∈ ds, d.1 = n ∧ leaves d.2 s = true := by
  have hi := hist_inv h
  constructor
  · intro hs'
    by_cases h1 : ∃ g ∈ hs, g.n = n
    · obtain ⟨g, hg, rfl⟩ := h1
      obtain ⟨p, e1, _, e3⟩ := hi.live g hg
      exact Or.inl ⟨g, hg, p, by cases g; simp at e1; rw [e1], by rw [← e3]; exact hs'⟩
    · by_cases h2 : ∃ d ∈ ds, d.1 = n
      · obtain ⟨d, hd, rfl⟩ := h2
        exact Or.inr ⟨d, hd, rfl, by rw [← (hi.dead d hd).2]; exact hs'⟩
      · have := hi.none n (fun g hg e => h1 ⟨g, hg, e⟩) (fun d hd e => h2 ⟨d, hd, e⟩) s
        rw [this] at hs'; simp at hs'
  · rintro (⟨g, hg, p, rfl, hp⟩ | ⟨d, hd, rfl, hp⟩)
    · obtain ⟨p', e1, _, e3⟩ := hi.live _ hg
      cases e1
      rw [e3]; exact hp
    · rw [(hi.dead d hd).2]; exact hp

/-- After every history, no step is an error: a creation with a new number and the destruction of every live handle are
defined. -/
theorem C68_defined_partial {st : State} {hs : List Handle} {ds : List (Nat × Prov)} (h : Hist st hs ds) :
    (∀ n mem q, (∀ g ∈ hs, g.n ≠ n) → (∀ d ∈ ds, d.1 ≠ n) → q.Sound → (apply st (create n mem q).2.1).isSome) ∧
    ∀ g ∈ hs, g.priv.isSome ∧ (apply st (destroy g)).isSome := by
  have hi := hist_inv h
  constructor
  · intro n mem q hn hd hq
    rcases C68_create_partial (mem := mem) (hi.none n hn hd) hq with ⟨_, _, ha⟩ | ⟨p, _, _, _, _, ha⟩
    · rw [ha]; rfl
    · rw [ha]; rfl
  · intro g hg
    obtain ⟨p, h1, h2, h3⟩ := hi.live g hg
    have hh : g = ⟨g.n, some p⟩ := by cases g; simp at h1; rw [h1]
    refine ⟨by rw [h1]; rfl, ?_⟩
    rw [hh, C68_destroy_partial h2 h3]; rfl

/-- When all providers are destroyed and none of them was a shared OS provider, nothing is left. -/
theorem C68_nothing_partial {st : State} {ds : List (Nat × Prov)} (h : Hist st [] ds)
    (hp : ∀ d ∈ ds, ∀ m l p s f sh, d.2 = .os m l p s f sh → f = none) (n : Nat) (s : Slot) : st n s = false := by
  rcases hb : st n s with _ | _
  · rfl
  · rcases (C68_live_partial h n s).1 hb with ⟨g, hg, _⟩ | ⟨d, hd, _, hl⟩
    · simp at hg
    · have hw := ((hist_inv h).dead d hd).1
      rcases d with ⟨m, p⟩
      cases p with
      | os a b c d f g =>
        have := hp _ hd a b c d f g rfl
        subst this
        obtain ⟨_, _, h3⟩ := hw
        cases g with
        | true => simp at h3
        | false => cases s <;> simp [leaves] at hl
      | _ => simp [leaves] at hl

/-- A request that nothing stands against succeeds. -/
theorem C68_good {n : Nat} {q : Req} (h : q.Good) : (create n true q).1 = .success ∧ q.Sound := by
  have key : (init n q).1 = .success → (create n true q).1 = .success := by
    intro e; unfold create; simp [e]
  cases q with
  | os P i a =>
    obtain ⟨g1, g2, g3, g4, g5, g6, g7, g8, g9, g10, g11, g12, g13, g14, g15, g16, g17⟩ := h
    refine ⟨key ?_, g10, g11, g12, fun _ => g16, fun _ => g15, g17⟩
    obtain ⟨d, hd⟩ := Option.isSome_iff_exists.1 g13
    obtain ⟨v, hv⟩ := Option.isSome_iff_exists.1 g2
    have hd0 : ¬ d = 0 := by rintro rfl; exact g17 hd
    have hns : (initNodeset n i.numa.list (dedicated i.numa) a).1 = true := by
      unfold initNodeset
      dsimp only
      rw [firstFail_none _ _ g11, firstFail_none _ _ g12]
      by_cases hl : i.numa.list = [] <;> simp [hl, g9, g10]
    have ht : (osTranslate n P i a).1 = .success := by
      unfold osTranslate
      rw [if_neg (by simp [g1]), hv]
      dsimp only
      rw [if_neg (by simp [hns])]
      split <;> rfl
    have hc : (createFd n i a).1 = .success := by
      unfold createFd
      split
      · rfl
      · cases hn : i.shmName with
        | some name =>
          obtain ⟨n1, n2⟩ := g4 name hn
          have : shmNameOk name = true := by simp [shmNameOk, NAME_MAX, n1, n2]
          dsimp only
          simp [this, hd, g14]
        | none => simp [hd, hd0, g14]
    show (osInit n P i a).1 = .success
    unfold osInit
    dsimp only
    rw [if_neg (by rintro ⟨e1, e2⟩; exact e2 (g3 e1)), if_neg (by simp [g5]), if_neg (by simp [g6]),
      if_neg (by simp [g7]), if_neg (by simp [g8]), if_neg (by simp [ht]), if_neg (by simp [hc]), if_neg (by simp [g15])]
  | file i a =>
    obtain ⟨⟨path, hp, hl⟩, g1, g2, g3, g4, g5, g6, g7, g8⟩ := h
    refine ⟨key ?_, fun p hp' => by rw [hp] at hp'; cases hp'; exact hl⟩
    have : pathOk path = true := decide_eq_true (by show path.length ≤ 4096 - 1; omega)
    have hc : (coarseNew n a.coarse).1 = .success := by rw [g5]; rfl
    show (fileInit n i a).1 = .success
    unfold fileInit
    rw [hp]
    dsimp only
    rw [if_neg (by simp [g2]), if_neg (by simp [g1]), if_neg (by simp [this]), if_neg (by simp [g3]),
      if_neg (by simp [g4]), if_neg (by simp [hc]), if_neg (by simp [g6]), if_neg (by simp [g7]), if_neg (by simp [g8])]
  | devdax i a =>
    obtain ⟨⟨r, hp, hl⟩, g1, g2, g3, g4, g5, g6, g7, g8, g9⟩ := h
    have hlen : ("/dev/dax".toList ++ r).length < 4096 := by
      rw [List.length_append]
      have : "/dev/dax".toList.length = 8 := by decide
      omega
    refine ⟨key ?_, fun p hp' => by rw [hp] at hp'; cases hp'; exact hlen, by rw [g8]⟩
    have : pathOk ("/dev/dax".toList ++ r) = true := decide_eq_true (by
      show ("/dev/dax".toList ++ r).length ≤ 4096 - 1; omega)
    have hc : (coarseNew n a.coarse).1 = .success := by rw [g4]; rfl
    have ho : (devdaxOpen n ("/dev/dax".toList ++ r) a).1 = true := by
      unfold devdaxOpen
      have : "/dev/dax".toList.isPrefixOf ("/dev/dax".toList ++ r) = true := by
        rw [List.isPrefixOf_iff_prefix]; exact List.prefix_append _ _
      rw [if_neg (by simp only [this]; simp), if_neg (by simp [g5]), if_neg (by simp [g6])]
    have hadd : (addFixed n a.add).1 = .success := by rw [g8]; rfl
    show (devdaxInit n i a).1 = .success
    unfold devdaxInit
    rw [hp]
    dsimp only
    rw [if_neg (by omega), if_neg (by simp [g3]), if_neg (by simp [hc]), if_neg (by simp [g2]), if_neg (by rw [this]; simp),
      if_neg (by rw [ho]; simp), if_neg (by simp [g7]), if_neg (by simp [g7]), if_neg (by simp [hadd]), if_neg (by simp [g9])]
  | fixed a =>
    obtain ⟨g1, g2, g3⟩ := h
    refine ⟨key ?_, by show a.add.elem = true; rw [g3]⟩
    have hc : (coarseNew n a.coarse).1 = .success := by rw [g2]; rfl
    have hadd : (addFixed n a.add).1 = .success := by rw [g3]; rfl
    show (fixedInit n a).1 = .success
    unfold fixedInit
    dsimp only
    rw [if_neg (by simp [g1]), if_neg (by simp [hc]), if_neg (by simp [hadd])]

end Verif.CpuProv
