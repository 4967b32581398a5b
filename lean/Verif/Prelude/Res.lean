/-!
# Outcomes of Rust code

`Res α` is the outcome of running a piece of Rust code: it either returns a value or panics.
-/

namespace Verif

/-- Outcome of a Rust function: a value, or a panic (with a human readable reason). -/
inductive Res (α : Type u) where
  | ok (a : α)
  | panic (why : String)
  deriving Repr, DecidableEq, Inhabited

namespace Res

/-- Sequencing: a panic propagates. -/
@[inline] def bind {α : Type u} {β : Type v} (x : Res α) (f : α → Res β) : Res β :=
  match x with
  | .ok a => f a
  | .panic w => .panic w

instance : Monad Res where
  pure := .ok
  bind := Res.bind

@[simp] theorem pure_eq {α : Type u} (a : α) : (pure a : Res α) = .ok a := rfl
@[simp] theorem ok_bind {α β : Type u} (a : α) (f : α → Res β) : (Res.ok a >>= f) = f a := rfl
@[simp] theorem panic_bind {α β : Type u} (w : String) (f : α → Res β) :
    (Res.panic w >>= f) = .panic w := rfl
@[simp] theorem map_ok {α β : Type u} (f : α → β) (a : α) : (f <$> Res.ok a) = .ok (f a) := rfl
@[simp] theorem map_panic {α β : Type u} (f : α → β) (w : String) :
    (f <$> (Res.panic w : Res α)) = .panic w := rfl

theorem bind_eq_ok {α β : Type u} {x : Res α} {f : α → Res β} {b : β} :
    (x >>= f) = .ok b ↔ ∃ a, x = .ok a ∧ f a = .ok b := by
  cases x <;> simp

theorem map_eq_ok {α β : Type u} {x : Res α} {f : α → β} {b : β} :
    (f <$> x) = .ok b ↔ ∃ a, x = .ok a ∧ f a = b := by
  cases x <;> simp

instance : LawfulMonad Res := LawfulMonad.mk'
  (id_map := by intro α x; cases x <;> rfl)
  (pure_bind := by intros; rfl)
  (bind_assoc := by intro α β γ x f g; cases x <;> rfl)

/-- The code returned normally. -/
def Returns {α : Type u} (x : Res α) : Prop := ∃ a, x = .ok a
/-- The code panicked. -/
def Panics {α : Type u} (x : Res α) : Prop := ∃ w, x = .panic w

@[simp] theorem returns_ok {α : Type u} (a : α) : Returns (.ok a) := ⟨a, rfl⟩
@[simp] theorem not_returns_panic {α : Type u} (w : String) : ¬ Returns (.panic w : Res α) := by
  rintro ⟨a, h⟩; cases h
@[simp] theorem panics_panic {α : Type u} (w : String) : Panics (.panic w : Res α) := ⟨w, rfl⟩
@[simp] theorem not_panics_ok {α : Type u} (a : α) : ¬ Panics (.ok a) := by
  rintro ⟨w, h⟩; cases h

theorem returns_or_panics {α : Type u} (x : Res α) : Returns x ∨ Panics x := by
  cases x
  · exact .inl ⟨_, rfl⟩
  · exact .inr ⟨_, rfl⟩

theorem not_returns_iff {α : Type u} (x : Res α) : ¬ Returns x ↔ Panics x := by
  cases x <;> simp

/-- Rust `assert!(b)`. -/
def assert (b : Bool) (why : String) : Res Unit := if b then .ok () else .panic why

@[simp] theorem assert_true (w : String) : assert true w = .ok () := rfl
@[simp] theorem assert_false (w : String) : assert false w = .panic w := rfl

theorem assert_eq_ok {b : Bool} {w : String} {u : Unit} : assert b w = .ok u ↔ b = true := by
  cases b <;> simp

/-- Rust `Option::unwrap` / `expect`. -/
def unwrap {α : Type u} (o : Option α) (why : String) : Res α :=
  match o with
  | some a => .ok a
  | none => .panic why

@[simp] theorem unwrap_some {α : Type u} (a : α) (w : String) : unwrap (some a) w = .ok a := rfl
@[simp] theorem unwrap_none {α : Type u} (w : String) :
    unwrap (none : Option α) w = .panic w := rfl

theorem unwrap_eq_ok {α : Type u} {o : Option α} {w : String} {a : α} :
    unwrap o w = .ok a ↔ o = some a := by
  cases o <;> simp

end Res

/-- A Rust loop over the elements of a list, with the mutable state made explicit.
`break`/`return` out of a loop is modelled separately where it occurs. -/
def loopM {α : Type u} {σ : Type v} (f : σ → α → Res σ) : List α → σ → Res σ
  | [], s => .ok s
  | a :: as, s =>
    match f s a with
    | .ok s' => loopM f as s'
    | .panic w => .panic w

@[simp] theorem loopM_nil {α : Type u} {σ : Type v} (f : σ → α → Res σ) (s : σ) :
    loopM f [] s = .ok s := rfl

theorem loopM_cons {α : Type u} {σ : Type u} (f : σ → α → Res σ) (a : α) (as : List α) (s : σ) :
    loopM f (a :: as) s = (f s a >>= fun s' => loopM f as s') := by
  simp only [loopM]; cases f s a <;> rfl

theorem loopM_append {α : Type u} {σ : Type v} (f : σ → α → Res σ) (as bs : List α) (s : σ) :
    loopM f (as ++ bs) s =
      (match loopM f as s with
       | .ok s' => loopM f bs s'
       | .panic w => .panic w) := by
  induction as generalizing s with
  | nil => rfl
  | cons a as ih =>
    simp only [List.cons_append, loopM]
    cases f s a with
    | ok s' => exact ih s'
    | panic w => rfl

/-- Loop rule: an invariant preserved by every iteration holds at the end. -/
theorem loopM_inv {α : Type u} {σ : Type v} {f : σ → α → Res σ} (P : σ → Prop)
    {as : List α} {s s' : σ} (h0 : P s)
    (hstep : ∀ a ∈ as, ∀ s s', P s → f s a = .ok s' → P s')
    (h : loopM f as s = .ok s') : P s' := by
  induction as generalizing s with
  | nil => simp only [loopM] at h; cases h; exact h0
  | cons a as ih =>
    simp only [loopM] at h
    split at h
    · rename_i s1 hs1
      exact ih (hstep a (by simp) s s1 h0 hs1)
        (fun b hb => hstep b (List.mem_cons_of_mem _ hb)) h
    · cases h

/-- Loop rule for "no panic": if every iteration returns and preserves the invariant. -/
theorem loopM_returns {α : Type u} {σ : Type v} {f : σ → α → Res σ} (P : σ → Prop)
    {as : List α} {s : σ} (h0 : P s)
    (hstep : ∀ a ∈ as, ∀ s, P s → ∃ s', f s a = .ok s' ∧ P s') :
    ∃ s', loopM f as s = .ok s' ∧ P s' := by
  induction as generalizing s with
  | nil => exact ⟨s, rfl, h0⟩
  | cons a as ih =>
    obtain ⟨s1, h1, p1⟩ := hstep a (by simp) s h0
    obtain ⟨s2, h2, p2⟩ := ih p1 (fun b hb => hstep b (List.mem_cons_of_mem _ hb))
    exact ⟨s2, by simp only [loopM, h1]; exact h2, p2⟩

end Verif
