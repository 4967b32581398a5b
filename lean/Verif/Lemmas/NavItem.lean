import Verif.Model.NavMessage
import Verif.Prelude.Slots

/-! # Lemmas on single stored navigation items -/

namespace Verif

/-- The update that a word makes to an item: copy `src` to the bits `lo..hi`, and refresh the age
number `idx`. -/
structure Upd where
  lo : Nat
  hi : Nat
  src : List Bool
  idx : Nat
  deriving DecidableEq

namespace NavItem

/-- Update made by a word to the CED and status. -/
def cedUpd (word : InavWord) : Option Upd :=
  match wordType word with
  | 1 => some ⟨0, 120, wbits word 6 126, 0⟩
  | 2 => some ⟨120, 240, wbits word 6 126, 1⟩
  | 3 => some ⟨240, 362, wbits word 6 128, 2⟩
  | 4 => some ⟨362, 482, wbits word 6 126, 3⟩
  | 5 => some ⟨482, 549, wbits word 6 73, 4⟩
  | _ => none

/-- Update made by a word to the timing parameters. -/
def timingUpd (word : InavWord) (band : InavBand) : Option Upd :=
  match wordType word, band with
  | 6, .E1B => some ⟨0, 99, wbits word 6 105, 0⟩
  | 10, .E1B => some ⟨99, 141, wbits word 86 128, 1⟩
  | _, _ => none

/-- Assignment followed by an optional update. -/
def feedUpd (u : Option Upd) (svn : Svn) (x : NavItem) : NavItem :=
  match u with
  | some u => (x.assign svn).copyWord u.lo u.hi u.src u.idx
  | none => x.assign svn

theorem feedCed_eq (x : NavItem) (word : InavWord) (svn : Svn) :
    x.feedCed word svn = feedUpd (cedUpd word) svn x := by
  unfold feedCed cedUpd feedUpd
  dsimp only
  generalize wordType word = t
  rcases t with _ | _ | _ | _ | _ | _ | t <;> rfl

theorem feedTiming_eq (x : NavItem) (word : InavWord) (svn : Svn) (band : InavBand) :
    x.feedTiming word svn band = feedUpd (timingUpd word band) svn x := by
  unfold feedTiming timingUpd feedUpd
  dsimp only
  generalize wordType word = t
  cases band
  · rcases t with _ | _ | _ | _ | _ | _ | _ | _ | _ | _ | _ | t <;> rfl
  · rcases t with _ | _ | _ | _ | _ | _ | _ | _ | _ | _ | _ | t <;> rfl

theorem wbits_length (word : InavWord) {lo hi : Nat} (h : hi ≤ 128) :
    (wbits word lo hi).length = hi - lo := by
  have : (bitsOf word.val).length = 128 := by rw [bitsOf_length, word.2]
  simp only [wbits, List.length_take, List.length_drop, this]; omega

/-- An update fits the layout of an item with `nbits` bits and `nwords` words. -/
structure _root_.Verif.Upd.Fits (u : Upd) (nbits nwords : Nat) : Prop where
  le : u.lo ≤ u.hi
  hi : u.hi ≤ nbits
  len : u.src.length = u.hi - u.lo
  idx : u.idx < nwords

theorem cedUpd_fits {word : InavWord} {u : Upd} (h : cedUpd word = some u) : u.Fits 549 5 := by
  unfold cedUpd at h
  split at h <;> cases h <;> constructor <;> simp [wbits_length]

theorem timingUpd_fits {word : InavWord} {band : InavBand} {u : Upd} (h : timingUpd word band = some u) :
    u.Fits 141 2 := by
  unfold timingUpd at h
  split at h <;> cases h <;> constructor <;> simp [wbits_length]

/-! ## Elementary facts -/

theorem assign_svn (x : NavItem) (svn : Svn) : (x.assign svn).svn = some svn := by
  unfold assign
  split
  · split
    · rename_i h1 h2; rw [h1, h2]
    · rfl
  · rfl

theorem assign_data (x : NavItem) (svn : Svn) : (x.assign svn).data = x.data := by
  unfold assign
  split
  · split <;> rfl
  · rfl

theorem copyWord_svn (x : NavItem) (lo hi : Nat) (src : List Bool) (idx : Nat) :
    (x.copyWord lo hi src idx).svn = x.svn := by
  unfold copyWord; dsimp only; split <;> rfl

theorem copyWord_age (x : NavItem) (lo hi : Nat) (src : List Bool) (idx : Nat) :
    (x.copyWord lo hi src idx).age = x.age.set idx 0 := by
  unfold copyWord; dsimp only; split <;> rfl

theorem copyWord_data (x : NavItem) (lo hi : Nat) (src : List Bool) (idx : Nat) (hlh : lo ≤ hi) :
    (x.copyWord lo hi src idx).data = x.data.take lo ++ src ++ x.data.drop hi := by
  unfold copyWord; dsimp only; split
  · rfl
  · rename_i h
    simp only [ne_eq, Decidable.not_not] at h
    dsimp only
    rw [← h, ← List.drop_take]
    rw [show x.data.take lo = (x.data.take hi).take lo by rw [List.take_take]; congr 1; omega,
      List.take_append_drop, List.take_append_drop]

/-- The authentication bits survive only if the data did not change. -/
theorem copyWord_auth (x : NavItem) (lo hi : Nat) (src : List Bool) (idx : Nat) :
    (x.copyWord lo hi src idx).authbits = 0 ∨
      ((x.copyWord lo hi src idx).authbits = x.authbits ∧ (x.copyWord lo hi src idx).data = x.data
        ∧ (x.data.drop lo).take (hi - lo) = src) := by
  unfold copyWord; dsimp only; split
  · exact .inl rfl
  · rename_i h
    simp only [ne_eq, Decidable.not_not] at h
    exact .inr ⟨rfl, rfl, h⟩

theorem assign_auth (x : NavItem) (svn : Svn) :
    (x.assign svn).authbits = 0 ∨
      ((x.assign svn).authbits = x.authbits ∧ (x.svn = some svn ∨ x.svn = none)) := by
  unfold assign
  split
  · rename_i s hs
    split
    · rename_i h; subst h; exact .inr ⟨rfl, .inl hs⟩
    · exact .inl rfl
  · rename_i hs; exact .inr ⟨rfl, .inr hs⟩

theorem feedUpd_svn (u : Option Upd) (svn : Svn) (x : NavItem) : (feedUpd u svn x).svn = some svn := by
  unfold feedUpd
  split
  · rw [copyWord_svn, assign_svn]
  · exact assign_svn x svn

/-- After a word, either the item has no authentication bits, or it had them before for the same
data (and was of this satellite, or unassigned). -/
theorem feedUpd_auth (u : Option Upd) (svn : Svn) (x : NavItem) :
    (feedUpd u svn x).authbits = 0 ∨
      ((feedUpd u svn x).authbits = x.authbits ∧ (feedUpd u svn x).data = x.data ∧
        (x.svn = some svn ∨ x.svn = none)) := by
  have ha := assign_auth x svn
  unfold feedUpd
  split
  · rename_i u
    rcases copyWord_auth (x.assign svn) u.lo u.hi u.src u.idx with h | ⟨h1, h2, _⟩
    · exact .inl h
    · rcases ha with ha | ⟨ha, hs⟩
      · exact .inl (by rw [h1, ha])
      · exact .inr ⟨by rw [h1, ha], by rw [h2, assign_data], hs⟩
  · rcases ha with ha | ⟨ha, hs⟩
    · exact .inl ha
    · exact .inr ⟨ha, assign_data x svn, hs⟩

/-! ## Items without their authentication bits -/

/-- Everything of the item except its authentication bits. -/
def core (x : NavItem) : NavItem := { x with authbits := 0 }

@[simp] theorem core_data (x : NavItem) : x.core.data = x.data := rfl
@[simp] theorem core_age (x : NavItem) : x.core.age = x.age := rfl
@[simp] theorem core_svn (x : NavItem) : x.core.svn = x.svn := rfl
@[simp] theorem core_core (x : NavItem) : x.core.core = x.core := rfl
theorem core_eq_iff {x y : NavItem} : x.core = y.core ↔ x.data = y.data ∧ x.age = y.age ∧ x.svn = y.svn := by
  obtain ⟨a, b, c, d⟩ := x
  obtain ⟨a', b', c', d'⟩ := y
  simp [core]

theorem core_addAuthbits (x : NavItem) (n : Nat) : (x.addAuthbits n).core = x.core := rfl
theorem core_older (x : NavItem) : x.older.core = x.core.older := rfl
theorem core_assign (x : NavItem) (svn : Svn) : (x.assign svn).core = (x.core).assign svn := by
  unfold assign
  simp only [core_svn]
  split
  · split <;> rfl
  · rfl
theorem core_copyWord (x : NavItem) (lo hi : Nat) (src : List Bool) (idx : Nat) :
    (x.copyWord lo hi src idx).core = x.core.copyWord lo hi src idx := by
  unfold copyWord
  by_cases h : (x.data.drop lo).take (hi - lo) ≠ src
  · simp [if_pos h, core]
  · simp only [ne_eq, Decidable.not_not] at h
    simp [h, core]
theorem core_feedUpd (u : Option Upd) (svn : Svn) (x : NavItem) :
    (feedUpd u svn x).core = feedUpd u svn x.core := by
  unfold feedUpd
  split
  · rw [core_copyWord, core_assign]
  · rw [core_assign]
theorem maxAge_core (x : NavItem) : x.core.maxAge = x.maxAge := rfl
theorem minAge_core (x : NavItem) : x.core.minAge = x.minAge := rfl
theorem placeKey_core (svn : Svn) (x : NavItem) : x.core.placeKey svn = x.placeKey svn := rfl
theorem messageBits_core (n : Nat) (x : NavItem) : x.core.messageBits n = x.messageBits n := rfl

theorem core_of_zero {x : NavItem} (h : x.authbits = 0) : x.core = x := by
  cases x; simp only [core] at *; subst h; rfl

/-! ## Ages -/

theorem foldl_max_le {l : List Nat} {a m : Nat} : l.foldl max a ≤ m ↔ a ≤ m ∧ ∀ x ∈ l, x ≤ m := by
  induction l generalizing a with
  | nil => simp
  | cons b l ih =>
    simp only [List.foldl_cons, ih, List.mem_cons, forall_eq_or_imp, ← and_assoc]
    exact and_congr_left' (by omega)

theorem le_foldl_min {l : List Nat} {a m : Nat} : m ≤ l.foldl min a ↔ m ≤ a ∧ ∀ x ∈ l, m ≤ x := by
  induction l generalizing a with
  | nil => simp
  | cons b l ih =>
    simp only [List.foldl_cons, ih, List.mem_cons, forall_eq_or_imp, ← and_assoc]
    exact and_congr_left' (by omega)

theorem maxAge_le {x : NavItem} {m : Nat} : x.maxAge ≤ m ↔ ∀ a ∈ x.age, a ≤ m := by
  simp [maxAge, foldl_max_le]

theorem le_minAge {x : NavItem} {m : Nat} : m ≤ x.minAge ↔ m ≤ 255 ∧ ∀ a ∈ x.age, m ≤ a := by
  simp [minAge, le_foldl_min]

theorem minAge_le_255 (x : NavItem) : x.minAge ≤ 255 := (le_minAge.1 (Nat.le_refl _)).1

theorem minAge_le_mem {x : NavItem} {a : Nat} (h : a ∈ x.age) : x.minAge ≤ a :=
  (le_minAge.1 (Nat.le_refl _)).2 a h

theorem foldl_min_mem {l : List Nat} {a : Nat} (h : l.foldl min a < a) : l.foldl min a ∈ l := by
  induction l generalizing a with
  | nil => simp at h
  | cons b l ih =>
    simp only [List.foldl_cons] at h ⊢
    by_cases hm : l.foldl min (min a b) < min a b
    · exact List.mem_cons_of_mem _ (ih hm)
    · have h1 : min a b ≤ l.foldl min (min a b) := by omega
      have h2 : l.foldl min (min a b) ≤ min a b := (le_foldl_min.1 (Nat.le_refl _)).1
      have : l.foldl min (min a b) = b := by omega
      rw [this]; simp

theorem minAge_mem {x : NavItem} (h : x.minAge < 255) : x.minAge ∈ x.age := foldl_min_mem h

end NavItem

/-! ## `max_by_key` -/

theorem argmaxLast_spec {l : List Nat} (h : l ≠ []) :
    ∃ i m, argmaxLast l = some (i, m) ∧ ∃ hi : i < l.length, l[i] = m ∧ (∀ x ∈ l, x ≤ m) ∧
      ∀ j, i < j → ∀ hj : j < l.length, l[j] < m := by
  induction l with
  | nil => exact absurd rfl h
  | cons k ks ih =>
    by_cases hk : ks = []
    · subst hk
      refine ⟨0, k, rfl, by simp, rfl, by simp, ?_⟩
      intro j h1 h2; simp at h2; omega
    · obtain ⟨i, m, h1, hi, h2, h3, h4⟩ := ih hk
      simp only [argmaxLast, h1]
      split
      · rename_i hmk
        refine ⟨0, k, rfl, by simp, rfl, ?_, ?_⟩
        · intro x hx
          rcases List.mem_cons.1 hx with rfl | hx
          · exact Nat.le_refl _
          · have := h3 x hx; omega
        · intro j hj hjl
          obtain ⟨j, rfl⟩ : ∃ j', j = j' + 1 := ⟨j - 1, by omega⟩
          have hjl' : j < ks.length := by simpa using hjl
          have := h3 ks[j] (List.getElem_mem hjl')
          simp only [List.getElem_cons_succ]; omega
      · rename_i hmk
        refine ⟨i + 1, m, rfl, by simpa using hi, by simpa using h2, ?_, ?_⟩
        · intro x hx
          rcases List.mem_cons.1 hx with rfl | hx
          · omega
          · exact h3 x hx
        · intro j hj hjl
          obtain ⟨j, rfl⟩ : ∃ j', j = j' + 1 := ⟨j - 1, by omega⟩
          have hjl' : j < ks.length := by simpa using hjl
          simp only [List.getElem_cons_succ]
          exact h4 j (by omega) hjl'

end Verif
