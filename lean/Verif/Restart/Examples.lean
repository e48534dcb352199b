import Verif.Restart.Client

/-! # Examples for C96 -/
namespace Verif.Restart.Example
open Verif.Runtime Verif.Tasks

/-- Two cells (`false`: data, `true`: the future of the print). -/
abbrev Mem := Bool → Int

/-- `x := x + 1; x := 2 * x`: not idempotent without putting memory back. -/
def work : Task Bool Int where
  reads c := c = false
  writes c := c = false
  body := [⟨false, fun s => s false + 1⟩, ⟨false, fun s => 2 * s false⟩]

/-- Prints the data. -/
def print : Task Bool Int where
  reads c := c = false
  writes c := c = true
  body := [⟨true, fun s => s false⟩]

theorem honest : ∀ t ∈ [work, print], t.Honest := by
  intro t ht u hu
  simp only [List.mem_cons, List.not_mem_nil, or_false] at ht
  rcases ht with rfl | rfl
  · simp only [work, List.mem_cons, List.not_mem_nil, or_false] at hu
    rcases hu with rfl | rfl
    · exact ⟨rfl, fun s s' h => by simp only [h false rfl]⟩
    · exact ⟨rfl, fun s s' h => by simp only [h false rfl]⟩
  · simp only [print, List.mem_cons, List.not_mem_nil, or_false] at hu
    subst hu
    exact ⟨rfl, fun s s' h => h false rfl⟩

theorem covers : ∀ t ∈ [work, print], Covers t := by
  intro t ht c hc
  simp only [List.mem_cons, List.not_mem_nil, or_false] at ht
  rcases ht with rfl | rfl
  · exact Or.inl hc
  · exact Or.inr ⟨_, List.mem_singleton.2 rfl, Eq.symm hc⟩

/-- Doubles into a second cell, which it only declares written. -/
def double : Task Bool Int where
  reads c := c = false
  writes c := c = true
  body := [⟨true, fun s => 2 * s false⟩]

/-- Giving up an attempt at it can leave anything in the second cell, and only there. -/
theorem garbage (x : Int) : GivenUp double (fun _ => 3) (fun _ => 3) (fun c => if c then x else 3) := by
  intro c
  cases c
  · exact ⟨fun _ => rfl, fun h => by cases (show false = true from h)⟩
  · exact ⟨fun h => absurd rfl h, fun _ h => by cases (show true = false from h)⟩

def kinds : Nat → Block := fun i => if i = 0 then .axpy else .printScalar

theorem chain : PrintChain [work, print] [⟨1, false⟩] where
  task j hj := by
    simp only [List.mem_cons, List.not_mem_nil, or_false] at hj
    subst hj
    exact ⟨print, _, rfl, rfl, rfl⟩
  order i a b _ hb := by simp at hb

/-- The work is given up once after its first assignment and once after its last; the result and the output are those of doing it once. -/
theorem interrupted : ∃ log m, (State.start (fun _ => 3) [work, print]).Logged (restartable kinds) log m ∧ m.Done ∧ log.length = 6 ∧
    m.store false = 8 ∧ output [⟨1, false⟩] log = [8] := by
  have may : restartable kinds 0 := by unfold restartable kinds; decide
  have back : ∀ {s : Mem}, (s true = 3) → GivenUp work (fun _ => 3) s (fun _ => 3) := by
    intro s h c
    cases c
    · exact ⟨fun h => absurd rfl h, fun _ _ => rfl⟩
    · exact ⟨fun _ => h.symm, fun h => by cases (show true = false from h)⟩
  let S := State.Logged (restartable kinds) (State.start (fun _ => (3 : Int)) [work, print])
  have h0 : S [] _ := .refl
  have h1 := State.Logged.advance (before := []) h0 (by simp)
  have h2 := State.Logged.restart (before := []) (s' := fun _ => 3) h1 may (back rfl)
  have h3 := State.Logged.advance (before := []) h2 (by simp)
  have h4 := State.Logged.advance (before := []) h3 (by simp)
  have h5 := State.Logged.restart (before := []) (s' := fun _ => 3) h4 may (back rfl)
  have h6 := State.Logged.advance (before := []) h5 (by simp)
  have h7 := State.Logged.advance (before := []) h6 (by simp)
  have h8 := State.Logged.commit (before := []) h7
  have h9 := State.Logged.advance (before := [_]) h8 (by
    intro r hr
    simp only [List.mem_cons, List.not_mem_nil, or_false] at hr
    subst hr
    exact Or.inl rfl)
  have h10 := State.Logged.commit (before := [_]) h9
  have key : ∀ log m, S log m → (∃ a b, m.tasks = [a, b] ∧ a.committed = true ∧ b.committed = true) →
      m.Done ∧ m.store false = 8 ∧ output [⟨1, false⟩] log = [8] := by
    rintro log m h ⟨a, b, e, ha, hb⟩
    have hd : m.Done := by
      intro r hr
      rw [e] at hr
      simp only [List.mem_cons, List.not_mem_nil, or_false] at hr
      rcases hr with rfl | rfl
      · exact ha
      · exact hb
    refine ⟨hd, ?_, ?_⟩
    · rw [c96_store honest covers h hd]
      decide
    · rw [c96_printing_classes kinds honest covers h hd _ chain (by
        intro j hj
        simp only [List.mem_cons, List.not_mem_nil, or_false] at hj
        subst hj
        decide)]
      decide
  obtain ⟨hd, h11, h12⟩ := key _ _ h10 ⟨_, _, rfl, rfl, rfl⟩
  exact ⟨_, _, h10, hd, rfl, h11, h12⟩

/-- If printing tasks were registered as idempotent as well, a line could be printed twice. -/
theorem printed_twice : ∃ log m, (State.start (fun _ => (3 : Int)) [print]).Logged (fun _ => True) log m ∧ m.Done ∧
    output [⟨0, false⟩] log = [3, 3] := by
  have h0 : (State.start (fun _ => (3 : Int)) [print]).Logged (fun _ => True) [] _ := .refl
  have h1 := State.Logged.advance (before := []) h0 (by simp)
  have h2 := State.Logged.restart (before := []) (s' := fun _ => 3) h1 trivial (fun c => ⟨fun h => by cases c <;> rfl, fun _ _ => rfl⟩)
  have h3 := State.Logged.advance (before := []) h2 (by simp)
  have h4 := State.Logged.commit (before := []) h3
  refine ⟨_, _, h4, fun r hr => ?_, ?_⟩
  · have hr : r ∈ [_] := hr
    simp only [List.mem_cons, List.not_mem_nil, or_false] at hr
    subst hr
    rfl
  · simp [output]

end Verif.Restart.Example
