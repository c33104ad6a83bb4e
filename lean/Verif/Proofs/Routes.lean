import Verif.Spec
import Verif.Proofs.Py
import Mathlib.Data.List.Nodup
import Mathlib.Data.List.Dedup
import Mathlib.Data.List.Perm.Subperm

/-! Lemmas about routes as node lists. -/

namespace Vrpy

open Spec

section consecutive
variable {α : Type}

@[simp] theorem consecutive_nil : consecutive ([] : List α) = [] := rfl
@[simp] theorem consecutive_one (a : α) : consecutive [a] = [] := rfl
@[simp] theorem consecutive_cons_cons (a b : α) (l : List α) :
    consecutive (a :: b :: l) = (a, b) :: consecutive (b :: l) := by
  simp [consecutive, List.dropLast]

theorem consecutive_append (xs ys : List α) (a : α) :
    consecutive (xs ++ a :: ys) = consecutive (xs ++ [a]) ++ consecutive (a :: ys) := by
  induction xs with
  | nil => simp
  | cons x xs ih =>
    cases xs with
    | nil => simp
    | cons y xs => simpa using ih

theorem consecutive_append_two (xs : List α) (a b : α) :
    consecutive (xs ++ [a, b]) = consecutive (xs ++ [a]) ++ [(a, b)] := by
  rw [consecutive_append]; simp

theorem fst_mem_of_consecutive {l : List α} {a b : α} (h : (a, b) ∈ consecutive l) : a ∈ l := by
  have := List.of_mem_zip h
  exact List.dropLast_subset _ this.1

theorem snd_mem_of_consecutive {l : List α} {a b : α} (h : (a, b) ∈ consecutive l) : b ∈ l := by
  have := List.of_mem_zip h
  exact List.mem_of_mem_tail this.2

theorem snd_mem_tail_of_consecutive {l : List α} {a b : α} (h : (a, b) ∈ consecutive l) : b ∈ l.tail :=
  (List.of_mem_zip h).2

theorem pred_of_mem : ∀ (t : List α) (a : α) {v : α}, v ∈ t → ∃ u, (u, v) ∈ consecutive (a :: t)
  | [], _, v, hv => by cases hv
  | b :: t, a, v, hv => by
    rcases List.mem_cons.1 hv with rfl | hv
    · exact ⟨a, by simp [consecutive]⟩
    · obtain ⟨u, hu⟩ := pred_of_mem t b hv
      exact ⟨u, by rw [consecutive_cons_cons]; exact List.mem_cons_of_mem _ hu⟩

theorem last_of_consecutive {P : List α} {a z : α} (hz : z ∉ P) (h : (a, z) ∈ consecutive (P ++ [z])) :
    ∃ Q, P = Q ++ [a] := by
  rcases List.eq_nil_or_concat P with rfl | ⟨Q, b, rfl⟩
  · simp at h
  · rw [List.concat_eq_append, List.append_assoc, List.singleton_append, consecutive_append_two] at h
    rcases List.mem_append.1 h with h | h
    · exact absurd (snd_mem_of_consecutive h) (by simpa using hz)
    · simp only [List.mem_singleton, Prod.mk.injEq, and_true] at h
      exact ⟨Q, by simp [h]⟩

theorem head_of_consecutive {P : List α} {a z : α} (hz : z ∉ P) (h : (z, a) ∈ consecutive (z :: P)) :
    ∃ Q, P = a :: Q := by
  cases P with
  | nil => simp at h
  | cons b Q =>
    rw [consecutive_cons_cons] at h
    rcases List.mem_cons.1 h with h | h
    · simp only [Prod.mk.injEq, true_and] at h
      exact ⟨Q, by rw [h]⟩
    · exact absurd (fst_mem_of_consecutive h) hz

end consecutive

theorem along_iff (E : Node → Node → Prop) (l : List Node) :
    Along E l ↔ ∀ a b, (a, b) ∈ consecutive l → E a b := by
  induction l with
  | nil => simp [Along]
  | cons a l ih =>
    cases l with
    | nil => simp [Along]
    | cons b l =>
      simp only [Along, ih, consecutive_cons_cons, List.mem_cons, Prod.mk.injEq]
      constructor
      · rintro ⟨h1, h2⟩ x y (⟨rfl, rfl⟩ | h)
        · exact h1
        · exact h2 x y h
      · intro h
        exact ⟨h a b (Or.inl ⟨rfl, rfl⟩), fun x y hxy => h x y (Or.inr hxy)⟩

theorem legSum_eq (w : Node → Node → ℚ) (l : List Node) :
    legSum w l = ((consecutive l).map (fun e => w e.1 e.2)).sum := by
  induction l with
  | nil => simp [legSum]
  | cons a l ih =>
    cases l with
    | nil => simp [legSum]
    | cons b l => simp [legSum, ih]

theorem legSum_append_two (w : Node → Node → ℚ) (xs : List Node) (a b : Node) :
    legSum w (xs ++ [a, b]) = legSum w (xs ++ [a]) + w a b := by
  simp [legSum_eq, consecutive_append_two]

theorem legSum_cons_cons (w : Node → Node → ℚ) (xs : List Node) (a b : Node) :
    legSum w (a :: b :: xs) = w a b + legSum w (b :: xs) := rfl

/-- A walk along the edges of a simple list, from its head, is a prefix of that list. -/
theorem walk_prefix (l : List Node) (hl : l.Nodup) (p : List Node) (a : Node) (hp : p.head? = some a)
    (hla : l.head? = some a) (hw : ∀ e ∈ consecutive p, e ∈ consecutive l) : p <+: l := by
  induction p generalizing l a with
  | nil => simp at hp
  | cons x p ih =>
    simp only [List.head?_cons, Option.some.injEq] at hp
    subst hp
    cases l with
    | nil => simp at hla
    | cons y l =>
      simp only [List.head?_cons, Option.some.injEq] at hla
      subst hla
      have hnd := List.nodup_cons.1 hl
      cases p with
      | nil => simp
      | cons z p =>
        have hyz := hw (y, z) (by simp)
        obtain ⟨Q, rfl⟩ := head_of_consecutive hnd.1 hyz
        have := ih (z :: Q) hnd.2 z rfl rfl (by
          intro e he
          have h1 := hw e (by simp [he])
          rw [consecutive_cons_cons] at h1
          rcases List.mem_cons.1 h1 with h | h
          · exfalso
            subst h
            -- `y` would be visited again
            have hmem : y ∈ z :: p := fst_mem_of_consecutive he
            have hall : ∀ v ∈ p, v ∈ z :: Q := by
              intro v hv
              have : v ∈ (z :: p).tail := by simpa using hv
              obtain ⟨i, hi, rfl⟩ := List.mem_iff_getElem.1 hv
              have hc : ((z :: p)[i]'(by simp; omega), p[i]) ∈ consecutive (y :: z :: p) := by
                rw [consecutive_cons_cons]
                refine List.mem_cons_of_mem _ ?_
                unfold consecutive
                rw [List.mem_iff_getElem]
                refine ⟨i, by simp; exact hi, ?_⟩
                simp [List.getElem_dropLast]
              have := snd_mem_tail_of_consecutive (hw _ hc)
              simpa using this
            rcases List.mem_cons.1 hmem with h | h
            · exact hnd.1 (by simp [h])
            · exact hnd.1 (hall y h)
          · exact h)
        obtain ⟨t, ht⟩ := this
        exact ⟨t, by simp [← ht]⟩

/-- A walk from the first to the last node of a simple list along its edges is that list. -/
theorem walk_unique (l : List Node) (hl : l.Nodup) (p : List Node) (a z : Node) (hp : p.head? = some a)
    (hla : l.head? = some a) (hpz : p.getLast? = some z) (hlz : l.getLast? = some z)
    (hw : ∀ e ∈ consecutive p, e ∈ consecutive l) : p = l := by
  obtain ⟨t, ht⟩ := walk_prefix l hl p a hp hla hw
  cases t with
  | nil => simpa using ht
  | cons b t =>
    exfalso
    rw [← ht, List.nodup_append] at hl
    have h1 : z ∈ p := List.mem_of_getLast? hpz
    rw [← ht] at hlz
    have h2 : z ∈ b :: t := by
      rw [List.getLast?_append_of_ne_nil _ (by simp)] at hlz
      exact List.mem_of_getLast? hlz
    exact hl.2.2 z h1 z h2 rfl

end Vrpy
