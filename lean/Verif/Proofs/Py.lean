import Verif.Model.Basic
import Mathlib.Tactic.Linarith

/-! General lemmas about the exception monad and loops. -/

namespace Vrpy

variable {α β : Type}

theorem forM_cons' (a : α) (l : List α) (f : α → Py Unit) :
    (a :: l).forM f = (match f a with | .error e => .error e | .ok _ => l.forM f) := by
  show (f a >>= fun _ => l.forM f) = _
  cases f a <;> rfl

theorem forM_nil' (f : α → Py Unit) : ([] : List α).forM f = .ok () := rfl

theorem forM_ok_iff (l : List α) (f : α → Py Unit) :
    l.forM f = .ok () ↔ ∀ x ∈ l, f x = .ok () := by
  induction l with
  | nil => simp [forM_nil']
  | cons a l ih =>
    simp only [forM_cons', List.mem_cons, forall_eq_or_imp]
    cases h : f a with
    | error e => simp
    | ok u => cases u; simpa using ih

/-- A loop raises `e` iff some iteration does and all earlier ones are fine. -/
theorem forM_error_iff (l : List α) (f : α → Py Unit) (e : PyErr) :
    l.forM f = .error e ↔ ∃ l1 x l2, l = l1 ++ x :: l2 ∧ (∀ y ∈ l1, f y = .ok ()) ∧ f x = .error e := by
  induction l with
  | nil => simp [forM_nil']
  | cons a l ih =>
    simp only [forM_cons']
    cases h : f a with
    | error e' =>
      simp only [Except.error.injEq]
      constructor
      · rintro rfl
        exact ⟨[], a, l, rfl, by simp, h⟩
      · rintro ⟨l1, x, l2, hl, hok, hx⟩
        cases l1 with
        | nil =>
          simp only [List.nil_append, List.cons.injEq] at hl
          rw [← hl.1, h] at hx
          simpa using hx
        | cons b l1 =>
          simp only [List.cons_append, List.cons.injEq] at hl
          have := hok b (by simp)
          rw [← hl.1, h] at this
          cases this
    | ok u =>
      cases u
      simp only
      rw [ih]
      constructor
      · rintro ⟨l1, x, l2, hl, hok, hx⟩
        exact ⟨a :: l1, x, l2, by simp [hl], by simpa [h] using hok, hx⟩
      · rintro ⟨l1, x, l2, hl, hok, hx⟩
        cases l1 with
        | nil =>
          simp only [List.nil_append, List.cons.injEq] at hl
          rw [← hl.1, h] at hx
          cases hx
        | cons b l1 =>
          simp only [List.cons_append, List.cons.injEq] at hl
          exact ⟨l1, x, l2, hl.2, fun y hy => hok y (by simp [hy]), hx⟩

/-- When every iteration either succeeds or raises the same exception `e`, the loop raises `e` iff some iteration
does. -/
theorem forM_error_const (l : List α) (f : α → Py Unit) (e : PyErr)
    (hf : ∀ x ∈ l, f x = .ok () ∨ f x = .error e) :
    (∀ e', l.forM f = .error e' → e' = e) ∧ (l.forM f = .error e ↔ ∃ x ∈ l, f x = .error e) := by
  constructor
  · intro e' h
    rw [forM_error_iff] at h
    obtain ⟨l1, x, l2, hl, _, hx⟩ := h
    rcases hf x (by simp [hl]) with h | h <;> rw [h] at hx <;> cases hx
    rfl
  · constructor
    · intro h
      rw [forM_error_iff] at h
      obtain ⟨l1, x, l2, hl, _, hx⟩ := h
      exact ⟨x, by simp [hl], hx⟩
    · rintro ⟨x, hx, hfx⟩
      cases h : l.forM f with
      | ok u =>
        cases u
        rw [forM_ok_iff] at h
        rw [h x hx] at hfx
        cases hfx
      | error e' =>
        rw [forM_error_iff] at h
        obtain ⟨l1, y, l2, hl, _, hy⟩ := h
        rcases hf y (by simp [hl]) with h | h <;> rw [h] at hy <;> cases hy
        rfl

/-- Invariant rule for loops that may raise. -/
theorem foldlM_inv {f : β → α → Py β} {P : β → Prop} (l : List α) (b b' : β) (hb : P b)
    (hstep : ∀ c a c', a ∈ l → P c → f c a = .ok c' → P c') (h : l.foldlM f b = .ok b') : P b' := by
  induction l generalizing b with
  | nil =>
    simp only [List.foldlM_nil, pure, Except.pure, Except.ok.injEq] at h
    exact h ▸ hb
  | cons a l ih =>
    simp only [List.foldlM_cons, bind, Except.bind] at h
    cases hfa : f b a with
    | error e => simp [hfa] at h
    | ok c =>
      simp only [hfa] at h
      exact ih c (hstep b a c (by simp) hb hfa) (fun c a c' ha => hstep c a c' (by simp [ha])) h

/-- A loop whose iterations succeed and preserve `P` succeeds and establishes `P`. -/
theorem foldlM_total {f : β → α → Py β} {P : β → Prop} (l : List α) (b : β) (hb : P b)
    (hstep : ∀ c a, a ∈ l → P c → ∃ c', f c a = .ok c' ∧ P c') : ∃ b', l.foldlM f b = .ok b' ∧ P b' := by
  induction l generalizing b with
  | nil => exact ⟨b, by simp [pure, Except.pure], hb⟩
  | cons a l ih =>
    obtain ⟨c, hc, hPc⟩ := hstep b a (by simp) hb
    obtain ⟨b', hb', hPb'⟩ := ih c hPc (fun c a ha => hstep c a (by simp [ha]))
    exact ⟨b', by simp [List.foldlM_cons, bind, Except.bind, hc, hb'], hPb'⟩

/-- Invariant rule with the processed prefix visible. -/
theorem foldlM_prefix {f : β → α → Py β} {P : List α → β → Prop} (l : List α) (b b' : β) (hb : P [] b)
    (hstep : ∀ pre a c c', pre ++ [a] <+: l → P pre c → f c a = .ok c' → P (pre ++ [a]) c')
    (h : l.foldlM f b = .ok b') : P l b' := by
  suffices H : ∀ (l2 pre : List α) (c : β), pre ++ l2 = l → P pre c → l2.foldlM f c = .ok b' → P l b' from
    H l [] b rfl hb h
  intro l2
  induction l2 with
  | nil =>
    intro pre c hpre hP h
    simp only [List.foldlM_nil, pure, Except.pure, Except.ok.injEq] at h
    simp only [List.append_nil] at hpre
    exact hpre ▸ h ▸ hP
  | cons a l2 ih =>
    intro pre c hpre hP h
    simp only [List.foldlM_cons, bind, Except.bind] at h
    cases hfa : f c a with
    | error e => simp [hfa] at h
    | ok d =>
      simp only [hfa] at h
      exact ih (pre ++ [a]) d (by simp [← hpre]) (hstep pre a c d ⟨l2, by simp [← hpre]⟩ hP hfa) h

theorem foldl_inv {f : β → α → β} {P : β → Prop} (l : List α) (b : β) (hb : P b)
    (hstep : ∀ c a, a ∈ l → P c → P (f c a)) : P (l.foldl f b) := by
  induction l generalizing b with
  | nil => exact hb
  | cons a l ih => exact ih _ (hstep b a (by simp) hb) (fun c a ha => hstep c a (by simp [ha]))

theorem foldl_prefix {f : β → α → β} {P : List α → β → Prop} (l : List α) (b : β) (hb : P [] b)
    (hstep : ∀ pre a c, pre ++ [a] <+: l → P pre c → P (pre ++ [a]) (f c a)) : P l (l.foldl f b) := by
  suffices H : ∀ (l2 pre : List α) (c : β), pre ++ l2 = l → P pre c → P l (l2.foldl f c) from H l [] b rfl hb
  intro l2
  induction l2 with
  | nil =>
    intro pre c hpre hP
    simp only [List.append_nil] at hpre
    exact hpre ▸ hP
  | cons a l2 ih =>
    intro pre c hpre hP
    exact ih (pre ++ [a]) _ (by simp [← hpre]) (hstep pre a c ⟨l2, by simp [← hpre]⟩ hP)

end Vrpy
