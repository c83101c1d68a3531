import Verif.Model.TruePeak
/-! # Lemmas about `Run` -/

namespace Verif.Run
variable {α β γ σ : Type}

@[simp] theorem bind_eq (x : Run α) (f : α → Run β) : (x >>= f) = Run.bind x f := rfl
@[simp] theorem pure_eq (a : α) : (pure a : Run α) = .done a := rfl
@[simp] theorem done_bind (a : α) (f : α → Run β) : Run.bind (.done a) f = f a := rfl
@[simp] theorem panic_bind (f : α → Run β) : Run.bind .panic f = .panic := rfl
@[simp] theorem hang_bind (f : α → Run β) : Run.bind .hang f = .hang := rfl

theorem bind_assoc (x : Run α) (f : α → Run β) (g : β → Run γ) :
    Run.bind (Run.bind x f) g = Run.bind x fun a => Run.bind (f a) g := by
  cases x <;> rfl

theorem bind_done {x : Run α} {f : α → Run β} {b : β} (h : Run.bind x f = .done b) :
    ∃ a, x = .done a ∧ f a = .done b := by
  cases x with
  | done a => exact ⟨a, rfl, h⟩
  | panic => cases h
  | hang => cases h

theorem bind_ne_hang {x : Run α} {f : α → Run β} (hx : x ≠ .hang) (hf : ∀ a, f a ≠ .hang) :
    Run.bind x f ≠ .hang := by
  cases x with
  | done a => exact hf a
  | panic => intro h; cases h
  | hang => exact absurd rfl hx

@[simp] theorem assert_true {c : Prop} [Decidable c] (h : c) : Run.assert c = .done () := if_pos h

theorem assert_done {c : Prop} [Decidable c] {u : Unit} (h : Run.assert c = .done u) : c := by
  unfold Run.assert at h
  split at h
  · assumption
  · cases h

theorem index_some {l : List α} {i : Nat} {a : α} (h : l[i]? = some a) : Run.index l i = .done a := by
  simp [Run.index, h]

theorem index_lt {l : List α} {i : Nat} (h : i < l.length) : Run.index l i = .done l[i] :=
  index_some (List.getElem?_eq_getElem h)

theorem index_done {l : List α} {i : Nat} {a : α} (h : Run.index l i = .done a) : l[i]? = some a := by
  unfold Run.index at h
  split at h
  · next b hb => cases h; exact hb
  · cases h

theorem forL_done {f : α → Run β} {g : α → β} {l : List α} (h : ∀ x ∈ l, f x = .done (g x)) :
    Run.forL f l = .done (l.map g) := by
  induction l with
  | nil => rfl
  | cons x xs ih =>
    rw [List.forall_mem_cons] at h
    simp [Run.forL, h.1, ih h.2]

theorem forL_length {f : α → Run β} {l : List α} {r : List β} (h : Run.forL f l = .done r) :
    r.length = l.length := by
  induction l generalizing r with
  | nil => cases h; rfl
  | cons x xs ih =>
    obtain ⟨y, _, h⟩ := bind_done h
    obtain ⟨ys, h2, h⟩ := bind_done h
    cases h
    simp [ih h2]

theorem foldL_done {f : σ → β → Run σ} {g : σ → β → σ} {P : σ → Prop} {l : List β} {s : σ}
    (h0 : P s) (h : ∀ s x, x ∈ l → P s → f s x = .done (g s x) ∧ P (g s x)) :
    Run.foldL f s l = .done (l.foldl g s) ∧ P (l.foldl g s) := by
  induction l generalizing s with
  | nil => exact ⟨rfl, h0⟩
  | cons x xs ih =>
    have hx := h s x (by simp) h0
    have := ih (s := g s x) hx.2 (fun s y hy => h s y (by simp [hy]))
    simp [Run.foldL, hx.1, this]

theorem foldL_append (f : σ → β → Run σ) (s : σ) (l m : List β) :
    Run.foldL f s (l ++ m) = Run.bind (Run.foldL f s l) fun s => Run.foldL f s m := by
  induction l generalizing s with
  | nil => rfl
  | cons x xs ih => simp [Run.foldL, bind_assoc, ih]

end Verif.Run
