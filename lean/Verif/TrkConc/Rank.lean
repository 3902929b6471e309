import Verif.TrkConc.Run
/-!
# Lemmas for the tracker used by several threads: every operation comes to an end
-/
namespace Verif.TrkConc

/-- An upper bound of the steps that are left. -/
def rank : Pc → Nat
  | .start => 40
  | .addFind _ _ => 20
  | .addLoad _ _ _ _ => 19
  | .addAlloc _ _ => 18
  | .addInsert _ _ _ => 17
  | .addDrop _ _ => 16
  | .seekFind _ lo _ _ _ => if lo = none then 30 else 25
  | .seekLoad _ lo _ _ _ _ => if lo = none then 29 else 24
  | .seekKids _ lo _ _ _ _ => if lo = none then 28 else 23
  | .seekMore _ lo _ _ _ _ => if lo = none then 27 else 22
  | .seekEnd _ lo _ _ _ _ => if lo = none then 26 else 21
  | .remDelete _ _ => 10
  | .remFree _ => 9
  | .lockWait _ => 35
  | .spSize _ _ _ _ => 20
  | .spUp _ _ _ _ => 19
  | .spPut _ _ _ _ => 18
  | .spAlloc _ _ _ _ => 17
  | .spInsert _ _ _ _ _ => 16
  | .spDrop _ _ _ _ _ => 15
  | .spRevert _ _ _ _ => 14
  | .mgCheck _ _ _ _ _ => 20
  | .mgUp _ _ _ _ _ => 19
  | .mgPut _ _ _ _ _ => 18
  | .mgFreeLow _ _ _ => 17
  | .mgRemove _ _ => 16
  | .freeLast _ => 8
  | .unlock => 7
  | .errUnlock _ _ => 6
  | .errFree _ _ => 5
  | .lkFind _ _ => 10
  | .lkLoad _ _ _ _ => 9
  | .lkKids _ _ _ => 8
  | .lkEnd _ => 7
  | _ => 1

theorem rank_le (pc : Pc) : rank pc ≤ 40 := by
  cases pc <;> simp only [rank] <;> first | omega | (split <;> omega)

/-- A step brings the operation nearer to its end, unless it waits for the mutex or has ended. -/
theorem rank_step {t : Nat} {op : Op} {st st' : St} {pc pc' : Pc} {v : Ans} {l l' : List (Nat × Addr)} {h h' : Addr → Info}
    (hn : next t op st pc v = some (st', pc')) (hl : Loc l h op pc) (hl' : Loc l' h' op pc') :
    rank pc' < rank pc ∨ (pc' = pc ∧ ((∃ res, pc = .fin res) ∨ ((∃ x, pc = .lockWait x) ∧ st.lock ≠ none))) := by
  cases op <;> cases pc <;> first | exact False.elim hl | skip
  all_goals
    unfold next at hn
    dsimp only [seekNull, seekDone] at hn
    repeat' split at hn
    all_goals first
      | (cases hn; done)
      | (cases hn; exact False.elim hl')
      | (cases hn; simp only [Loc, reduceCtorEq] at hl'; simp_all; done)
      | (cases hn; left; simp [rank]; done)
      | (cases hn; left; simp only [rank]; split <;> omega)
      | (cases hn; right; refine ⟨rfl, ?_⟩; simp_all; done)
      | (cases hn; simp only [Loc] at hl hl'; left; simp_all [rank]; done)
      | skip

end Verif.TrkConc
