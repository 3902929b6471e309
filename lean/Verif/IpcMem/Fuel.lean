import Verif.IpcMem.Lru
/-!
# Lemmas for the cache of opened IPC handles: the number of rounds allowed to the loops does not matter once it is enough
-/
namespace Verif.IpcMem

/-- Where `m` is defined, `m'` does the same. -/
def Ext {α : Type} (m m' : M α) : Prop := ∀ s, m s = .undef ∨ m' s = m s

theorem Ext.refl {α : Type} (m : M α) : Ext m m := fun _ => .inr rfl

theorem Ext.bind {α β : Type} {m m' : M α} {f f' : α → M β} (h : Ext m m') (hf : ∀ a, Ext (f a) (f' a)) :
    Ext (m >>= f) (m' >>= f') := by
  intro s
  rw [bind_app, bind_app]
  rcases h s with h | h
  · rw [h]
    exact .inl rfl
  · rw [h]
    cases m s with
    | undef => exact .inl rfl
    | exit => exact .inr rfl
    | ok a s => exact hf a s

theorem Ext.ite {α : Type} {c : Prop} [Decidable c] {m m' n n' : M α} (h : Ext m m') (h' : Ext n n') :
    Ext (if c then m else n) (if c then m' else n') := by
  split
  · exact h
  · exact h'

theorem ext_undef {α : Type} (m : M α) : Ext undef m := fun _ => .inl rfl

theorem dlCount_ext : ∀ f g, f ≤ g → ∀ e, Ext (dlCount f e) (dlCount g e) := by
  intro f
  induction f with
  | zero => exact fun _ _ _ => ext_undef _
  | succ f ih =>
    intro g hg e
    obtain ⟨g, rfl⟩ : ∃ k, g = k + 1 := ⟨g - 1, by omega⟩
    unfold dlCount
    exact .ite (.refl _) (.bind (.refl _) fun n => .bind (ih g (by omega) n) fun _ => .refl _)

theorem findIn_ext {key : Key} {h : Nat} : ∀ f g, f ≤ g → ∀ e, Ext (findIn key h f e) (findIn key h g e) := by
  intro f
  induction f with
  | zero => exact fun _ _ _ => ext_undef _
  | succ f ih =>
    intro g hg e
    obtain ⟨g, rfl⟩ : ∃ k, g = k + 1 := ⟨g - 1, by omega⟩
    unfold findIn
    exact .ite (.refl _) (.bind (.refl _) fun _ => .ite (.refl _) (.bind (.refl _) fun n => ih g (by omega) n))

theorem moveChain_ext {T a : Addr} : ∀ f g, f ≤ g → ∀ e, Ext (moveChain T a f e) (moveChain T a g e) := by
  intro f
  induction f with
  | zero => exact fun _ _ _ => ext_undef _
  | succ f ih =>
    intro g hg e
    obtain ⟨g, rfl⟩ : ∃ k, g = k + 1 := ⟨g - 1, by omega⟩
    unfold moveChain
    exact .ite (.refl _) (.bind (.refl _) fun n => .bind (.refl _) fun _ => ih g (by omega) n)

theorem moveAll_ext {T a : Addr} {f g : Nat} (h : f ≤ g) : ∀ k i, Ext (moveAll T a f k i) (moveAll T a g k i) := by
  intro k
  induction k with
  | zero => exact fun _ => .refl _
  | succ k ih =>
    intro i
    unfold moveAll
    exact .bind (.refl _) fun _ => .bind (.refl _) fun b => .bind (moveChain_ext f g h b.head) fun _ => ih (i + 1)

theorem expand_ext {T : Addr} {f g : Nat} (h : f ≤ g) : Ext (expand f T) (expand g T) := by
  unfold expand
  exact .bind (.refl _) fun _ => .ite (.refl _) (.bind (.refl _) fun _ => .bind (.refl _) fun _ => .bind (.refl _) fun _ =>
    .bind (moveAll_ext h _ _) fun _ => .refl _)

theorem hashAdd_ext {hash : Key → Nat} {c e : Addr} {f g : Nat} (h : f ≤ g) : Ext (hashAdd hash f c e) (hashAdd hash g c e) := by
  have h1 : ∀ x v, Ext (addToTable f x e v) (addToTable g x e v) := by
    intro x v
    unfold addToTable addToBkt
    refine .bind (.refl _) fun _ => .bind (.refl _) fun _ => .bind (.refl _) fun _ => .bind (.refl _) fun _ => .bind (.refl _) fun _ =>
      .bind (.refl _) fun _ => .bind (.refl _) fun _ => .ite ?_ ?_ <;>
    first
    | exact .bind (.refl _) fun _ => .bind (.refl _) fun _ => .bind (.refl _) fun _ => .ite (expand_ext h) (.refl _)
    | exact .bind (.refl _) fun _ => .bind (.refl _) fun _ => .bind (.refl _) fun _ => .bind (.refl _) fun _ => .ite (expand_ext h) (.refl _)
  unfold hashAdd
  exact .bind (.refl _) fun _ => .bind (.refl _) fun _ => .bind (.refl _) fun _ => .ite
    (.bind (.refl _) fun _ => .bind (.refl _) fun _ => .bind (.refl _) fun _ => .bind (.refl _) fun _ => h1 _ _)
    (.bind (.refl _) fun _ => .bind (.refl _) fun _ => .bind (.refl _) fun _ => h1 _ _)

theorem candidate_ext : ∀ f g, f ≤ g → ∀ e, Ext (candidate f e) (candidate g e) := by
  intro f
  induction f with
  | zero => exact fun _ _ _ => ext_undef _
  | succ f ih =>
    intro g hg e
    obtain ⟨g, rfl⟩ : ∃ k, g = k + 1 := ⟨g - 1, by omega⟩
    unfold candidate
    exact .bind (.refl _) fun _ => .ite (.refl _) (.bind (.refl _) fun x => .bind (.refl _) fun _ => .bind (.refl _) fun _ =>
      .ite (ih g (by omega) x) (.refl _))

theorem destroyLoop_ext {c : Addr} : ∀ f g, f ≤ g → ∀ e t, Ext (destroyLoop c f e t) (destroyLoop c g e t) := by
  intro f
  induction f with
  | zero => exact fun _ _ _ _ => ext_undef _
  | succ f ih =>
    intro g hg e t
    obtain ⟨g, rfl⟩ : ∃ k, g = k + 1 := ⟨g - 1, by omega⟩
    unfold destroyLoop
    exact .ite (.refl _) (.bind (.refl _) fun _ => .bind (.refl _) fun _ => .bind (.refl _) fun _ => .bind (.refl _) fun _ =>
      .bind (.refl _) fun _ => .bind (.refl _) fun _ => .ite
        (.bind (.refl _) fun t' => .bind (ih g (by omega) t t') fun _ => .refl _)
        (.bind (.refl _) fun t' => .bind (ih g (by omega) t t') fun _ => .refl _))

theorem cacheGet_ext {hash : Key → Nat} {m : Bool} {c : Addr} {key : Key} {hid : Nat} {f g : Nat} (h : f ≤ g) :
    Ext (cacheGet hash f m c key hid) (cacheGet hash g m c key hid) := by
  have h1 : ∀ e, Ext (fill hash f c e key hid) (fill hash g c e key hid) := by
    intro e
    unfold fill
    exact .bind (.refl _) fun _ => .bind (.refl _) fun _ => .bind (hashAdd_ext h) fun _ => .refl _
  have h2 : Ext (getNew hash f m c key hid) (getNew hash g m c key hid) := by
    unfold getNew
    exact .bind (.refl _) fun _ => .ite (.refl _) (.bind (.refl _) fun _ => .ite (.refl _) (.bind (h1 _) fun _ => .refl _))
  have h3 : ∀ e, Ext (getEvict hash f c e key hid) (getEvict hash g c e key hid) := by
    intro e
    unfold getEvict
    exact .bind (.refl _) fun _ => .bind (.refl _) fun _ => .bind (.refl _) fun _ => .bind (.refl _) fun _ => .bind (.refl _) fun _ =>
      .bind (h1 _) fun _ => .refl _
  unfold cacheGet hashFind
  refine .bind (.bind (.refl _) fun _ => .ite (.refl _) (.bind (.refl _) fun _ => .bind (.refl _) fun _ => .bind (.refl _) fun b =>
    findIn_ext f g h b.head)) fun _ => .ite (.bind (.refl _) fun _ => .ite (.refl _) (h3 _)) (.bind (.refl _) fun _ =>
    .ite (.bind (.refl _) fun x => .bind (candidate_ext f g h x) fun _ => .ite (h3 _) h2) h2)

theorem call_ext {hash : Key → Nat} {m : Bool} {f g : Nat} (h : f ≤ g) (op : Op) : Ext (call hash f m op) (call hash g m op) := by
  cases op with
  | init k => exact .refl _
  | tearDown =>
    unfold call globalTearDown
    exact .bind (.bind (.refl _) fun _ => .bind (dlCount_ext f g h _) fun _ => .refl _) fun _ => .refl _
  | create p => exact .refl _
  | destroy c =>
    unfold call cacheDestroy
    exact .bind (.bind (.refl _) fun _ => .ite (.bind (.refl _) fun _ => .bind (destroyLoop_ext f g h _ _) fun _ => .refl _)
      (.bind (.refl _) fun _ => .bind (destroyLoop_ext f g h _ _) fun _ => .refl _)) fun _ => .refl _
  | get c key hid =>
    unfold call
    exact .bind (cacheGet_ext h) fun _ => .refl _
  | release e => exact .refl _
  | map e b n => exact .refl _

end Verif.IpcMem
