import Verif.Sweep.Spec
import Mathlib.Tactic.Ring

/-! # C94: the benchmark scripts -/
set_option linter.dupNamespace false
namespace Verif.Sweep

/-! ## Sizes -/

/-- The iterator after `n` sizes. -/
def Gen.after (g : Gen) : Nat → Gen
  | 0 => g
  | n + 1 => (g.after n).next

theorem after1 (n : Nat) : iterator1.after n = .one (2 ^ (12 + n)) := by
  induction n with
  | zero => rfl
  | succ n ih => rw [Gen.after, ih, ← Nat.add_assoc, Nat.pow_succ]; rfl

theorem after2 (n : Nat) : iterator2.after n = .two (2 ^ (6 + (n + 1) / 2)) (2 ^ (6 + n / 2)) (decide (n % 2 = 1)) := by
  induction n with
  | zero => rfl
  | succ n ih =>
    rw [Gen.after, ih]
    rcases Nat.mod_two_eq_zero_or_one n with h | h
    · rw [show decide (n % 2 = 1) = false by simp [h], show decide ((n + 1) % 2 = 1) = true by simp; omega, Gen.next,
        show (n + 1 + 1) / 2 = (n + 1) / 2 + 1 by omega, show (n + 1) / 2 = n / 2 by omega, ← Nat.add_assoc, Nat.pow_succ]
    · rw [show decide (n % 2 = 1) = true by simp [h], show decide ((n + 1) % 2 = 1) = false by simp; omega, Gen.next,
        show (n + 1 + 1) / 2 = (n + 1) / 2 by omega, show (n + 1) / 2 = n / 2 + 1 by omega, ← Nat.add_assoc, Nat.pow_succ]

theorem after3 (n : Nat) : iterator3.after n = .three (2 ^ (4 + (n + 2) / 3)) (2 ^ (4 + (n + 1) / 3)) (2 ^ (4 + n / 3)) (n % 3) := by
  induction n with
  | zero => rfl
  | succ n ih =>
    rw [Gen.after, ih]
    have h3 : n % 3 = 0 ∨ n % 3 = 1 ∨ n % 3 = 2 := by omega
    rcases h3 with h | h | h
    · rw [h, show (n + 1) % 3 = 1 by omega, Gen.next, show (n + 1 + 2) / 3 = (n + 2) / 3 + 1 by omega, show (n + 1 + 1) / 3 = (n + 1) / 3 by omega,
        show (n + 1) / 3 = n / 3 by omega, ← Nat.add_assoc, Nat.pow_succ]
    · rw [h, show (n + 1) % 3 = 2 by omega, Gen.next, show (n + 1 + 2) / 3 = (n + 2) / 3 by omega, show (n + 1 + 1) / 3 = (n + 1) / 3 + 1 by omega,
        show (n + 1) / 3 = n / 3 by omega, ← Nat.add_assoc, Nat.pow_succ]
    · rw [h, show (n + 1) % 3 = 0 by omega, Gen.next, show (n + 1 + 2) / 3 = (n + 2) / 3 by omega, show (n + 1 + 1) / 3 = (n + 1) / 3 by omega,
        show (n + 1) / 3 = n / 3 + 1 by omega, ← Nat.add_assoc, Nat.pow_succ]
      · omega
      · omega

/-- The iterator for `d` dimensions. -/
def iteratorFor : Nat → Gen
  | 1 => iterator1
  | 2 => iterator2
  | _ => iterator3

theorem yields_after (d n : Nat) : ((iteratorFor d).after n).yields = sizeAt d n := by
  unfold iteratorFor sizeAt
  split
  · rw [after1]; rfl
  · rw [after2]; rfl
  · rename_i h1 h2
    rw [after3]
    split
    · contradiction
    · contradiction
    · rfl

/-- **C94**, sizes: the `n`-th problem has 4096 · 2ⁿ points, and no side is more than twice another. -/
theorem c94_sizes (d n : Nat) : ((iteratorFor d).after n).yields = sizeAt d n ∧ (sizeAt d n).prod = 4096 * 2 ^ n ∧
    ∀ a ∈ sizeAt d n, ∀ b ∈ sizeAt d n, a ≤ 2 * b := by
  refine ⟨yields_after d n, ?_, ?_⟩
  · unfold sizeAt
    split
    · simp [Nat.pow_add]
    · simp only [List.prod_cons, List.prod_nil, Nat.mul_one]
      rw [← Nat.pow_add, show (4096 : Nat) = 2 ^ 12 by rfl, ← Nat.pow_add]
      congr 1; omega
    · simp only [List.prod_cons, List.prod_nil, Nat.mul_one]
      rw [← Nat.pow_add, ← Nat.pow_add, show (4096 : Nat) = 2 ^ 12 by rfl, ← Nat.pow_add]
      congr 1; omega
  · have key : ∀ x y, x ≤ y + 1 → 2 ^ x ≤ 2 * 2 ^ y := fun x y h => by
      rw [Nat.mul_comm, ← Nat.pow_succ]
      exact Nat.pow_le_pow_right (by omega) h
    unfold sizeAt
    intro a ha b hb
    split at ha
    · simp only [List.mem_singleton] at ha hb
      subst ha hb
      exact key _ _ (by omega)
    · simp only [List.mem_cons, List.not_mem_nil, or_false] at ha hb
      rcases ha with rfl | rfl <;> rcases hb with rfl | rfl <;> exact key _ _ (by omega)
    · rename_i h1 h2
      split at hb
      · contradiction
      · contradiction
      · simp only [List.mem_cons, List.not_mem_nil, or_false] at ha hb
        rcases ha with rfl | rfl | rfl <;> rcases hb with rfl | rfl | rfl <;> exact key _ _ (by omega)

theorem sizeAt_inj {d n n' : Nat} (h : sizeAt d n = sizeAt d n') : n = n' := by
  have h1 := (c94_sizes d n).2.1
  rw [h, (c94_sizes d n').2.1] at h1
  exact (Nat.pow_right_injective (le_refl 2) (Nat.eq_of_mul_eq_mul_left (by omega) h1)).symm

/-! ## The tries of one command -/

theorem Genuine.nil (ext : Ext) (log : Log) : Genuine ext log [] := fun a e b h => by simp at h

theorem Genuine.cons {ext : Ext} {log l : Log} {e : Cmd × Result} (he : e.2 = ext log e.1) (h : Genuine ext (log ++ [e]) l) : Genuine ext log (e :: l) := by
  intro a e' b hab
  cases a with
  | nil =>
    simp only [List.nil_append, List.cons.injEq] at hab
    obtain ⟨rfl, -⟩ := hab
    simpa using he
  | cons x a =>
    simp only [List.cons_append, List.cons.injEq] at hab
    obtain ⟨rfl, hab⟩ := hab
    have := h a e' b hab
    simpa using this

theorem Genuine.append {ext : Ext} {log a b : Log} (ha : Genuine ext log a) (hb : Genuine ext (log ++ a) b) : Genuine ext log (a ++ b) := by
  induction a generalizing log with
  | nil => simpa using hb
  | cons e a ih =>
    refine Genuine.cons (by simpa using ha [] e a rfl) (ih (fun a' e' b' h => ?_) (by simpa using hb))
    have := ha (e :: a') e' b' (by rw [h]; rfl)
    simpa using this

theorem tries_spec (ext : Ext) (memory : Bool) (cmd : Cmd) (k : Nat) : ∀ num log, num + k = 4 →
    ∃ ok l, tries ext memory cmd num log = some (ok, log ++ l) ∧ Genuine ext log l ∧
      (ok = true → ∃ f e, l = f ++ [e] ∧ f.length + num < 5 ∧ Failures memory (.ok cmd) f ∧ e.1 = cmd ∧ Success memory e.2) ∧
      (ok = false → (l.length + num = 5 ∧ Failures memory (.ok cmd) l) ∨
        ∃ f e, l = f ++ [e] ∧ f.length + num < 5 ∧ Failures memory (.ok cmd) f ∧ e.1 = cmd ∧ memory = true ∧ outOfMemory e.2) := by
  induction k with
  | zero =>
    intro num log hn
    rw [tries]
    have hg : Genuine ext log [(cmd, ext log cmd)] := Genuine.cons rfl (Genuine.nil _ _)
    by_cases h1 : memory ∧ outOfMemory (ext log cmd)
    · rw [if_pos h1]
      exact ⟨false, _, rfl, hg, by simp, fun _ => Or.inr ⟨[], _, rfl, by simp; omega, by intro e he; simp at he, rfl, h1⟩⟩
    · rw [if_neg h1]
      by_cases h2 : (ext log cmd).code = 0
      · rw [if_pos h2]
        exact ⟨true, _, rfl, hg, fun _ => ⟨[], _, rfl, by simp; omega, by intro e he; simp at he, rfl, h2, h1⟩, by simp⟩
      · rw [if_neg h2, if_pos (by omega)]
        refine ⟨false, _, rfl, hg, by simp, fun _ => Or.inl ⟨by simp; omega, ?_⟩⟩
        intro e he
        simp only [List.mem_singleton] at he
        subst he
        exact ⟨rfl, h2, h1⟩
  | succ k ih =>
    intro num log hn
    rw [tries]
    have hg : Genuine ext log [(cmd, ext log cmd)] := Genuine.cons rfl (Genuine.nil _ _)
    by_cases h1 : memory ∧ outOfMemory (ext log cmd)
    · rw [if_pos h1]
      exact ⟨false, _, rfl, hg, by simp, fun _ => Or.inr ⟨[], _, rfl, by simp; omega, by intro e he; simp at he, rfl, h1⟩⟩
    · rw [if_neg h1]
      by_cases h2 : (ext log cmd).code = 0
      · rw [if_pos h2]
        exact ⟨true, _, rfl, hg, fun _ => ⟨[], _, rfl, by simp; omega, by intro e he; simp at he, rfl, h2, h1⟩, by simp⟩
      · rw [if_neg h2, if_neg (by omega)]
        obtain ⟨ok, l, g1, g2, g3, g4⟩ := ih (num + 1) (log ++ [(cmd, ext log cmd)]) (by omega)
        have hcons : ∀ f, Failures memory (.ok cmd) f → Failures memory (.ok cmd) ((cmd, ext log cmd) :: f) := by
          intro f hf e he
          rcases List.mem_cons.1 he with rfl | he
          · exact ⟨rfl, h2, h1⟩
          · exact hf e he
        refine ⟨ok, (cmd, ext log cmd) :: l, by rw [g1]; simp, Genuine.cons rfl g2, fun h => ?_, fun h => ?_⟩
        · obtain ⟨f, e, rfl, a1, a2, a3⟩ := g3 h
          exact ⟨(cmd, ext log cmd) :: f, e, rfl, by simp; omega, hcons f a2, a3⟩
        · rcases g4 h with ⟨a1, a2⟩ | ⟨f, e, rfl, a1, a2, a3⟩
          · exact Or.inl ⟨by simp; omega, hcons l a2⟩
          · exact Or.inr ⟨(cmd, ext log cmd) :: f, e, rfl, by simp; omega, hcons f a2, a3⟩

/-- The tries of a command end, after a success or a failure. -/
theorem tries_ends (ext : Ext) (memory : Bool) (cmd : Cmd) (log : Log) :
    ∃ ok l, tries ext memory cmd 0 log = some (ok, log ++ l) ∧ Genuine ext log l ∧ (ok = true → Passed memory (.ok cmd) l) ∧
      (ok = false → Failed memory (.ok cmd) l) := by
  obtain ⟨ok, l, g1, g2, g3, g4⟩ := tries_spec ext memory cmd 4 0 log rfl
  refine ⟨ok, l, g1, g2, fun h => ?_, fun h => ?_⟩
  · obtain ⟨f, e, a1, a2, a3, rfl, a5⟩ := g3 h
    exact ⟨f, e, a1, a2, a3, rfl, a5⟩
  · rcases g4 h with h | ⟨f, e, a1, a2, a3, rfl, a5⟩
    · exact Or.inl h
    · exact Or.inr ⟨f, e, a1, a2, a3, rfl, a5⟩

theorem AllPassed.snoc {memory : Bool} {c : Nat → Except Exc Cmd} {n : Nat} {a b : Log} (ha : AllPassed memory c n a) (hb : Passed memory (c n) b) :
    AllPassed memory c (n + 1) (a ++ b) := by
  obtain ⟨bs, h1, h2, h3⟩ := ha
  refine ⟨bs ++ [b], by simp [h1], by simp [h2], fun i x hx => ?_⟩
  by_cases hi : i < n
  · rw [List.getElem?_append_left (by omega)] at hx
    exact h3 i x hx
  · rw [List.getElem?_append_right (by omega)] at hx
    have : i - bs.length = 0 := by
      by_contra hne
      rw [List.getElem?_eq_none (by simp; omega)] at hx
      cases hx
    rw [this] at hx
    simp at hx
    subst hx
    rw [show i = n by omega]
    exact hb

theorem Passed.length {memory : Bool} {c : Except Exc Cmd} {l : Log} (h : Passed memory c l) : l.length ≤ 5 := by
  obtain ⟨f, e, rfl, h1, -⟩ := h
  simp; omega

theorem Failed.length {memory : Bool} {c : Except Exc Cmd} {l : Log} (h : Failed memory c l) : l.length ≤ 5 := by
  rcases h with h | ⟨f, e, rfl, h1, -⟩
  · omega
  · simp; omega

theorem flatten_length (bs : List Log) (h : ∀ b ∈ bs, b.length ≤ 5) : bs.flatten.length ≤ 5 * bs.length := by
  induction bs with
  | nil => simp
  | cons b bs ih =>
    have h1 := h b (List.mem_cons_self ..)
    have h2 := ih fun b hb => h b (List.mem_cons_of_mem _ hb)
    simp only [List.flatten_cons, List.length_append, List.length_cons]
    omega

theorem AllPassed.length {memory : Bool} {c : Nat → Except Exc Cmd} {n : Nat} {l : Log} (h : AllPassed memory c n l) : l.length ≤ 5 * n := by
  obtain ⟨bs, h1, rfl, h3⟩ := h
  rw [← h1]
  refine flatten_length bs fun b hb => ?_
  obtain ⟨i, hi⟩ := List.mem_iff_getElem?.1 hb
  exact (h3 i b hi).length

/-- A sweep makes at most five runs per size. -/
theorem UpTo.length {c : Nat → Except Exc Cmd} {n : Nat} {l : Log} (h : UpTo c n l) : l.length ≤ 5 * n := by
  rcases h with h | ⟨k, hk, a, b, rfl, h1, h2⟩
  · exact h.length
  · have := h1.length
    have := h2.length
    simp; omega

/-! ## One sweep -/

theorem petsc_from (ext : Ext) (dim solver : String) (g : Gen) (hc : ∀ n, ∃ cmd, petscCommand dim solver (g.after n).yields = .ok cmd) :
    ∀ (g' : Gen) (log : Log) (r : Except Exc Size × Log), benchmarkPetsc ext dim solver g' log = some r →
      ∀ n a log0, g' = g.after n → log = log0 ++ a → AllPassed true (fun i => petscCommand dim solver (g.after i).yields) n a → Genuine ext log0 a →
      ∃ m l, n ≤ m ∧ r = (.ok (g.after m).yields, log0 ++ l) ∧ FailsAt true (fun i => petscCommand dim solver (g.after i).yields) m l ∧ Genuine ext log0 l := by
  refine benchmarkPetsc.partial_correctness ext dim solver _ fun rec ih g' log r hr n a log0 hg hlog hpass hgen => ?_
  obtain ⟨cmd, hcmd⟩ := hc n
  subst hg hlog
  rw [hcmd] at hr
  simp only at hr
  obtain ⟨ok, l, t1, t2, t3, t4⟩ := tries_ends ext true cmd (log0 ++ a)
  rw [t1] at hr
  rw [← hcmd] at t3 t4
  cases ok with
  | true =>
    have hr' : rec (g.after n).next (log0 ++ a ++ l) = some r := hr
    obtain ⟨m, l', h1, h2⟩ := ih _ _ r hr' (n + 1) (a ++ l) log0 rfl (List.append_assoc ..) (hpass.snoc (t3 rfl)) (hgen.append t2)
    exact ⟨m, l', by omega, h2⟩
  | false =>
    have hr' : some (.ok (g.after n).yields, log0 ++ a ++ l) = some r := hr
    cases hr'
    exact ⟨n, a ++ l, Nat.le_refl n, by rw [List.append_assoc], ⟨a, l, rfl, hpass, t4 rfl⟩, hgen.append t2⟩

end Verif.Sweep
