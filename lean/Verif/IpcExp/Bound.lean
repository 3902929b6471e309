import Verif.IpcExp.Step

/-! # A call makes a bounded number of steps -/
namespace Verif.IpcExp

def rank (s : St) : Pc → Nat
  | .idle => 0
  | .lookup _ => 16
  | .size1 _ _ _ => 15
  | .alloc1 _ _ _ _ => 14
  | .look g => if s.cache g.b = none then 13 else 4
  | .size2 _ => 12
  | .alloc2 _ _ => 11
  | .upget _ _ _ => 10
  | .fill _ _ _ _ => 9
  | .ins _ _ => 8
  | .put _ _ _ => 7
  | .freeV _ _ _ => 6
  | .copy _ _ => 2
  | .freeD _ _ => 1
  | .done _ _ => 0
  | .free0 _ _ => 6
  | .free1 _ _ => 5
  | .freePut _ _ _ => 4
  | .freeVal _ _ _ => 3
  | .freeUp _ _ => 2
  | .freeAdd _ _ _ => 1
  | .freed _ _ _ => 0

theorem rank_le (s : St) (p : Pc) : rank s p ≤ 16 := by
  cases p <;> simp only [rank] <;> (try split) <;> omega

theorem rank_step (L : Nat) (s : St) (t : Nat) (a : Ans) (hp : PcO L s (s.pc t)) (hw : Working (s.pc t)) :
    rank (step s t a) ((step s t a).pc t) < rank s (s.pc t) := by
  have hg : ∀ (s : St) p, (s.to t p).pc t = p := fun s p => by simp [St.to, upd]
  cases e : s.pc t with
  | idle => rw [e] at hw; exact hw.elim
  | done x r => rw [e] at hw; exact hw.elim
  | freed b sz r => rw [e] at hw; exact hw.elim
  | freeV g v r =>
    rw [e] at hp
    simp only [step, e]
    cases r with
    | some r => dsimp only; rw [hg]; simp [rank]
    | none =>
      dsimp only; rw [hg]
      have h1 : ((s.gfree v).to t (.look g)).cache = s.cache := (gfree_frame s v).2.2.1
      simp only [rank]; rw [h1, if_neg (hp.2.1 rfl)]; omega
  | look g =>
    simp only [step, e]
    split
    · rename_i v hc; rw [hg]; simp [rank, hc]
    · rename_i hc; rw [hg]; simp [rank, hc]
  | alloc1 x b sz room =>
    simp only [step, e]
    cases a with
    | yes d => dsimp only; rw [hg]; simp only [rank]; split <;> omega
    | no c => dsimp only; rw [hg]; simp [rank]
  | ins g v =>
    simp only [step, e]
    split
    · rw [hg]; simp [rank]
    · split <;> rw [hg] <;> simp [rank]
  | _ => simp only [step, e] <;> (try split) <;> rw [hg] <;> simp [rank]

theorem step_pc_ne (s : St) (t u : Nat) (a : Ans) (h : u ≠ t) : (step s t a).pc u = s.pc u := by
  have hg : ∀ (s' : St) p, s'.pc = s.pc → (s'.to t p).pc u = s.pc u := fun s' p e => by simp [St.to, upd, h, e]
  cases e : s.pc t with
  | freeV g v r => simp only [step, e]; split <;> exact hg _ _ (gfree_frame s v).2.1
  | fill g v len w => simp only [step, e]; exact hg _ _ (fillV_frame s v len w).2.1
  | put g v full => simp only [step, e]; split <;> exact hg _ _ (uput_frame s v).2.1
  | copy g v => simp only [step, e]; exact hg _ _ (copyV_frame s g v).2.1
  | freeD g r => simp only [step, e]; exact hg _ _ (gfree_frame s g.d).2.1
  | freePut b sz v => simp only [step, e]; exact hg _ _ (uput_frame s v).2.1
  | freeVal b sz v => simp only [step, e]; exact hg _ _ (gfree_frame s v).2.1
  | ins g v =>
    simp only [step, e]; split
    · exact hg _ _ rfl
    · split <;> exact hg _ _ rfl
  | idle => simp only [step, e]
  | done x r => simp only [step, e]
  | freed b sz r => simp only [step, e]
  | _ => simp only [step, e] <;> (try split) <;> exact hg _ _ rfl

theorem step_cache (s : St) (t b : Nat) (a : Ans) (h : s.cache b ≠ none) (hn : (step s t a).cache b = none) :
    ∃ sz, s.pc t = .free1 b sz := by
  cases e : s.pc t with
  | free1 b' sz =>
    simp only [step, e] at hn
    cases hc : s.cache b' with
    | none => rw [hc] at hn; exact absurd hn h
    | some v =>
      rw [hc] at hn
      simp only [St.to, upd] at hn
      split at hn
      · rename_i e'; exact ⟨sz, by rw [e']⟩
      · exact absurd hn h
  | freeV g v r =>
    simp only [step, e] at hn; split at hn <;>
    · simp only [St.to] at hn; rw [(gfree_frame s v).2.2.1] at hn; exact absurd hn h
  | fill g v len w => simp only [step, e, St.to] at hn; rw [(fillV_frame s v len w).2.2.1] at hn; exact absurd hn h
  | put g v full =>
    simp only [step, e] at hn; split at hn <;>
    · simp only [St.to] at hn; rw [(uput_frame s v).2.2.1] at hn; exact absurd hn h
  | copy g v => simp only [step, e, St.to] at hn; rw [(copyV_frame s g v).2.2.1] at hn; exact absurd hn h
  | freeD g r => simp only [step, e, St.to] at hn; rw [(gfree_frame s g.d).2.2.1] at hn; exact absurd hn h
  | freePut b' sz v => simp only [step, e, St.to] at hn; rw [(uput_frame s v).2.2.1] at hn; exact absurd hn h
  | freeVal b' sz v => simp only [step, e, St.to] at hn; rw [(gfree_frame s v).2.2.1] at hn; exact absurd hn h
  | ins g v =>
    simp only [step, e] at hn; split at hn
    · exact absurd hn h
    · split at hn
      · simp only [St.to, upd] at hn
        split at hn
        · cases hn
        · exact absurd hn h
      · exact absurd hn h
  | idle => simp only [step, e] at hn; exact absurd hn h
  | done x r => simp only [step, e] at hn; exact absurd hn h
  | freed b' sz r => simp only [step, e] at hn; exact absurd hn h
  | _ => simp only [step, e] at hn <;> (try split at hn) <;> exact absurd hn h

theorem rank_mono (s s' : St) (p : Pc) (h : ∀ g, p = .look g → s.cache g.b ≠ none → s'.cache g.b ≠ none) :
    rank s' p ≤ rank s p := by
  cases p with
  | look g =>
    simp only [rank]
    by_cases e : s.cache g.b = none
    · rw [if_pos e]; split <;> omega
    · rw [if_neg e, if_neg (h g rfl e)]; omega
  | _ => simp [rank]

theorem rank_other (L : Nat) (w w' : World) (l : Option Nat) (t : Nat) (hr : InvR w.s) (hn : Next L l w w') (hl : l ≠ some t) :
    w'.s.pc t = w.s.pc t ∧ rank w'.s (w'.s.pc t) ≤ rank w.s (w.s.pc t) := by
  have hto : ∀ (s : St) u p, u ≠ t → (s.to u p).pc t = s.pc t :=
    fun s u p h => by simp only [St.to, upd]; rw [if_neg (fun e : t = u => h e.symm)]
  have hne : ∀ u, some u ≠ some t → u ≠ t := fun u h e => h (by rw [e])
  cases hn with
  | alloc _ b sz hsz hr' hf => exact ⟨rfl, rank_mono _ _ _ (fun _ _ h => h)⟩
  | callGet _ u x hi hf =>
    have := hto w.s u (.lookup x) (hne u hl)
    exact ⟨this, by rw [this]; exact rank_mono _ _ _ (fun _ _ h => h)⟩
  | retHandle _ u x d hh hp ho =>
    have := hto w.s u .idle (hne u hl)
    exact ⟨this, by rw [this]; exact rank_mono _ _ _ (fun _ _ h => h)⟩
  | retError _ u x r hp h' =>
    have := hto w.s u .idle (hne u hl)
    exact ⟨this, by rw [this]; exact rank_mono _ _ _ (fun _ _ h => h)⟩
  | callFree _ u b sz hi hr' hg hf =>
    have := hto w.s u (.free0 b sz) (hne u hl)
    exact ⟨this, by rw [this]; exact rank_mono _ _ _ (fun _ _ h => h)⟩
  | retFree _ u b sz r hp =>
    have := hto w.s u .idle (hne u hl)
    exact ⟨this, by rw [this]; exact rank_mono _ _ _ (fun _ _ h => h)⟩
  | put _ d hd =>
    have h1 : (putHandle w.s d).pc = w.s.pc := (gfree_frame w.s d).2.1
    have h2 : (putHandle w.s d).cache = w.s.cache := (gfree_frame w.s d).2.2.1
    refine ⟨by dsimp only; rw [h1], ?_⟩
    dsimp only; rw [h1]; exact rank_mono _ _ _ (fun _ _ h => by rw [h2]; exact h)
  | step _ u a he =>
    have h1 := step_pc_ne w.s u t a (fun e => hne u hl e.symm)
    refine ⟨h1, ?_⟩
    dsimp only; rw [h1]
    refine rank_mono _ _ _ (fun g hg hc hn => ?_)
    obtain ⟨sz, hf⟩ := step_cache w.s u g.b a hc hn
    obtain ⟨h2, h3⟩ := hr.loc t g.x g.b g.sz (by rw [hg]; rfl)
    obtain ⟨h4, h5⟩ := hr.out u g.b sz (by rw [hf]; rfl)
    have h6 := h5 _ _ h2; have h7 := hr.pos _ _ h2
    unfold Apart at h6; omega

theorem Run.bound (L t : Nat) (w w' : World) (n : Nat) (hr : Reach L w) (h : Run L t w n w') :
    Reach L w' ∧ n + rank w'.s (w'.s.pc t) ≤ rank w.s (w.s.pc t) := by
  induction h with
  | nil => exact ⟨hr, by omega⟩
  | own w' n a _ he hw ih =>
    obtain ⟨h1, h2⟩ := ih
    refine ⟨Reach.next w' _ _ h1 (Next.step w' t a he), ?_⟩
    obtain ⟨_, own, uo, h3⟩ := h1.inv
    have := rank_step L w'.s t a (h3.pcs t) hw
    dsimp only; omega
  | other w' w'' n l _ hn hl ih =>
    obtain ⟨h1, h2⟩ := ih
    refine ⟨Reach.next w' _ _ h1 hn, ?_⟩
    have := (rank_other L w' w'' l t h1.inv.1 hn hl).2
    omega

end Verif.IpcExp
