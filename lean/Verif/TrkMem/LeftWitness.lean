import Verif.TrkMem.LeftProps
import Verif.TrkMem.Witness
/-! # A concrete case of C85 -/
namespace Verif.TrkMem

/-- Regions of the pools 1 and 2 are left after the calls of `demo`; with one more call, of pool 2 again. -/
def demoLeft : List Call := demo ++ [.alloc 2 0x10 (.ok 0x1200) fresh true]

example : Reach (after demoLeft) := by
  refine reach_story .init ?_ (pick1 (o := story empty demoLeft) (by decide +kernel))
  intro c hc t
  simp only [demoLeft, demo, one, List.mem_cons, List.not_mem_nil, or_false, List.cons_append, List.nil_append] at hc
  rcases hc with rfl | rfl | rfl | rfl | rfl | rfl | rfl <;> simp [Call.Fair, fine, fresh_honest]

example : (itemsLeft (after demoLeft) 0, itemsLeft (after demoLeft) 1, itemsLeft (after demoLeft) 2, itemsLeft (after demoLeft) 3) =
    (some 3, some 1, some 2, some 0) := by decide +kernel

example : (checkEmpty (after demoLeft) 0 false, checkEmpty (after demoLeft) 2 false, checkEmpty (after demoLeft) 0 true,
    checkEmpty empty 0 false) = (some (.all 3), some (.ofPool 2 2), some .silent, some .silent) := by decide +kernel

end Verif.TrkMem
