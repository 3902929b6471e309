import Verif.Log.Concrete
import Verif.ProxyOpt.Props
/-!
# C83: concrete cases, and what the unchanged code does not do
-/
namespace Verif.ProxyOpt

open Verif.Log (IsItem item_cons item_last)

/-- An environment that refuses nothing. -/
def allGranted : Ans := ⟨fun _ => true, true, true, true, true, true, (true, true, true, true, true, true), 4711⟩

theorem allGranted_ok : Granted allGranted := ⟨rfl, rfl, rfl, rfl, rfl, rfl⟩

theorem quiet_none : Quiet none := fun _ h => by cases h

/-- The example of the documentation, `README.md:365`. -/
def docVar : List Char := "page.disposition=shared-shm;size.threshold=64".toList

theorem docVar_eq : docVar = shmOpt ++ ';' :: (thrOpt ++ ['6', '4']) := by decide +kernel

theorem dec64 : IsDecimal ['6', '4'] := ⟨by simp, by decide⟩

theorem doc_documented : Documented docVar := by
  intro it h
  rw [docVar_eq] at h
  rcases item_cons (by decide +kernel) h with rfl | h
  · exact Or.inr (Or.inr (Or.inl rfl))
  · have := item_last (by decide +kernel) h
    subst this
    exact Or.inr (Or.inr (Or.inr ⟨_, dec64, rfl⟩))

theorem doc_asks : Asks docVar 64 := by
  right
  refine ⟨shmOpt ++ [';'], ['6', '4'], [], by rw [docVar_eq]; simp, Or.inr ⟨shmOpt, rfl⟩, Or.inl rfl, dec64,
    by decide +kernel, ?_⟩
  intro v h
  rcases item_cons (b := []) (by decide +kernel) h with h | h
  · have hz : ('z' : Char) ∈ thrOpt ++ v := List.mem_append_left _ (by decide +kernel)
    rw [h] at hz
    exact absurd hz (by decide +kernel)
  · have := Verif.Log.item_nil h
    simp only [List.append_eq_nil_iff] at this
    exact absurd this.1 (by decide +kernel)

/-- The hypotheses of `C83_start_partial` are met by the documented example, with the expected result. -/
example : Documented docVar ∧ Asks docVar 64 ∧ Granted allGranted ∧
    create ⟨none, some docVar, none⟩ allGranted = .ok ⟨64, true, some "umf_proxy_lib_shm_pid_4711".toList⟩ :=
  ⟨doc_documented, doc_asks, allGranted_ok, by decide +kernel⟩

/-- A refused symbol, with a threshold and without. -/
example : create ⟨none, some docVar, none⟩ { allGranted with symbols := (true, true, true, true, false, true) } = .exit ∧
    create ⟨none, some [], none⟩ { allGranted with symbols := (true, true, true, true, false, true) } =
      .ok ⟨0, false, none⟩ := ⟨by decide +kernel, by decide +kernel⟩

/-- A threshold that is not a number ends the process. -/
example : create ⟨none, some "size.threshold=abc".toList, none⟩ allGranted = .exit ∧
    create ⟨none, some "size.threshold=-1".toList, none⟩ allGranted = .exit ∧
    create ⟨none, some "size.threshold=".toList, none⟩ allGranted = .exit :=
  ⟨by decide +kernel, by decide +kernel, by decide +kernel⟩

/-- The tear-down, with the library preloaded and with a threshold. -/
example : tearDownDestroys ⟨none, some docVar, some "/usr/lib/libumf_proxy.so".toList⟩ = false ∧
    tearDownDestroys ⟨none, some docVar, none⟩ = true := ⟨by decide +kernel, by decide +kernel⟩

/-- C83 is violated: the item `size.threshold=64k` is not refused like `size.threshold=abc`, and means 64 bytes. -/
theorem C83_suffix_violated : ∃ var : List Char, IsItem var "size.threshold=64k".toList ∧
    (∀ it, IsItem var it → it = "size.threshold=64k".toList) ∧
    create ⟨none, some var, none⟩ allGranted = .ok ⟨64, false, none⟩ :=
  ⟨"size.threshold=64k".toList,
    ⟨by decide +kernel, [], [], by decide +kernel, Or.inl rfl, Or.inl rfl⟩,
    fun _ h => item_last (by decide +kernel) h, by decide +kernel⟩

/-- C83 is violated: an item with another name that ends like the option is taken for it, although the list asks for 64. -/
theorem C83_otherName_violated : ∃ var : List Char, IsItem var "my.size.threshold=1".toList ∧ Asks var 64 ∧
    create ⟨none, some var, none⟩ allGranted = .ok ⟨1, false, none⟩ := by
  have e : "my.size.threshold=1;size.threshold=64".toList =
      "my.size.threshold=1".toList ++ ';' :: (thrOpt ++ ['6', '4']) := by decide +kernel
  refine ⟨"my.size.threshold=1;size.threshold=64".toList, ?_, ?_, by decide +kernel⟩
  · exact ⟨by decide +kernel, [], ";size.threshold=64".toList, by decide +kernel, Or.inl rfl,
      Or.inr ⟨"size.threshold=64".toList, by decide +kernel⟩⟩
  · right
    refine ⟨"my.size.threshold=1".toList ++ [';'], ['6', '4'], [], by rw [e]; simp, Or.inr ⟨_, rfl⟩, Or.inl rfl, dec64,
      by decide +kernel, ?_⟩
    intro v h
    rcases item_cons (b := []) (by decide +kernel) h with h | h
    · have ht : thrOpt = 's' :: "ize.threshold=".toList := by decide +kernel
      have hm : "my.size.threshold=1".toList = 'm' :: "y.size.threshold=1".toList := by decide +kernel
      rw [ht, hm] at h
      simp at h
    · have := Verif.Log.item_nil h
      simp only [List.append_eq_nil_iff] at this
      exact absurd this.1 (by decide +kernel)

/-- C83 is violated: a threshold of 2^63, which `size_t` can hold, follows the syntax, but `atol` is undefined for it. -/
theorem C83_overflow_violated : ∃ var : List Char, Documented var ∧ Asks var (2 ^ 63) ∧
    create ⟨none, some var, none⟩ allGranted = .undef := by
  refine ⟨thrOpt ++ Nat.toDigits 10 (2 ^ 63), ?_, asks_number _, by decide +kernel⟩
  intro it h
  have := item_last (by decide +kernel) h
  subst this
  exact Or.inr (Or.inr (Or.inr ⟨_, ⟨by decide +kernel, by decide +kernel⟩, rfl⟩))

/-- C83 is violated: with debug messages on, and no size threshold asked for, the NULL pointer is printed with `%s`. -/
theorem C83_debug_violated : ∃ umfLog : List Char, IsItem umfLog "level:debug".toList ∧
    create ⟨some umfLog, none, none⟩ allGranted = .undef ∧
    create ⟨some umfLog, some "page.disposition=shared-fd".toList, none⟩ allGranted = .undef := by
  refine ⟨"level:debug;output:stderr".toList, ?_, by decide +kernel, by decide +kernel⟩
  exact ⟨by decide +kernel, [], ";output:stderr".toList, by decide +kernel, Or.inl rfl,
    Or.inr ⟨"output:stderr".toList, by decide +kernel⟩⟩

end Verif.ProxyOpt
