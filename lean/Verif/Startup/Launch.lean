import Verif.Startup.Report

/-! # C87: a launch runs the code it is meant to run -/
set_option linter.dupNamespace false
namespace Verif.Startup
open Verif.Tasks Verif.Driver Verif.Programs

theorem intended_registered {c : Config} (h1 : 1 ≤ c.maxDim) (h3 : c.maxDim ≤ 3) {op : Operation} (hs : op.Supported c) (hr : op.Restricted) :
    op.intended ∈ calls c ∧ (op.intended).DimsOk c.maxDim := by
  rw [mem_calls_iff]
  cases op with
  | scalar k t => exact ⟨hs, trivial⟩
  | vector k t n i =>
    obtain ⟨ht, hi, h1, h2⟩ := hs
    exact ⟨⟨ht, hi, h1, h2.trans h3, h2⟩, h1, h2⟩
  | matvec csr t k s d =>
    obtain ⟨-, ⟨-, a1, a2⟩, -, -⟩ := hs
    obtain ⟨rfl, rfl, rfl⟩ := hr
    cases csr <;> exact ⟨⟨⟨rfl, rfl, rfl⟩, rfl, rfl, Nat.le_refl _, by decide, Or.inl rfl⟩, ⟨a1, a2⟩, ⟨a1, a2⟩, ⟨a1, a2⟩⟩
  | printMatrix csr t k s =>
    obtain ⟨-, ⟨-, a1, a2⟩, -, b1, b2⟩ := hs
    obtain ⟨rfl, h1, h2, h4⟩ := hr
    cases csr
    · exact ⟨⟨⟨rfl, h1, h1⟩, rfl, rfl, h2, h4, Or.inr (Or.inl rfl)⟩, ⟨a1, a2⟩, ⟨b1, b2⟩, ⟨b1, b2⟩⟩
    · exact ⟨⟨⟨rfl, h1, h1⟩, rfl, rfl, h2, h4, Or.inr (Or.inr rfl)⟩, ⟨a1, a2⟩, ⟨b1, b2⟩, ⟨b1, b2⟩⟩
  | printPartition s =>
    obtain ⟨hi, h1, h2⟩ := hs
    exact ⟨⟨hi, h1, h2.trans h3, h2⟩, h1, h2⟩
  | laplacian k t =>
    exact ⟨⟨⟨rfl, rfl, rfl⟩, rfl, rfl, Nat.le_refl _, by decide, Or.inl rfl⟩, ⟨Nat.le_refl _, h1⟩, ⟨Nat.le_refl _, h1⟩, ⟨Nat.le_refl _, h1⟩⟩
  | stencil k t n i =>
    obtain ⟨ht, hi, h1, h2⟩ := hs
    exact ⟨⟨ht, hi, h1, h2.trans h3, h2⟩, h1, h2⟩

/-- **C87** (launches): in a build with a maximum dimension of 2 or 3, every operation that initialisation covers (C17) launches an identifier that has
a CPU variant, and whatever variant Legion takes for that identifier, on whatever processor, it is the code of the operation's own task. -/
theorem c87_launch {b : Build} (h2 : 2 ≤ b.cfg.maxDim) (h3 : b.cfg.maxDim ≤ 3) {printInfo verbose : Bool} {lines : List Text} {vs : List Variant}
    (h : initLib b printInfo verbose = some (lines, vs)) (op : Operation) (hs : op.Supported b.cfg) (hr : op.Restricted) :
    ∃ id, b.cfg.launchedId op = some id ∧ (∃ v ∈ vs, v.id = id ∧ v.proc = .loc) ∧
      ∀ v ∈ vs, v.id = id → v.task = .inst op.intended ∧ v.name = taskName op.intended := by
  obtain ⟨x, hx, hall⟩ := c16_operation_dispatch_partial b.cfg (by omega) op hs
  obtain ⟨hm, hd⟩ := intended_registered (by omega) h3 hs hr
  have hi : b.cfg.staticId op.intended = some x := (hall _ hd).2 rfl
  have hv := (c87_registered h ⟨.inst op.intended, x, taskName op.intended, .loc, registrarOf op.intended.block.flags⟩).2
    (Or.inl ⟨_, (mem_calls _ _).1 hm, x, hi, Or.inl rfl⟩)
  exact ⟨x, hx, ⟨_, hv, rfl, rfl⟩, fun v hw e => (c87_ids h2 h).2 v hw _ hv e⟩

/-- Instance: the product of a CSR matrix with a vector, in double precision, with the committed options. -/
example : (2 ≤ Config.default.maxDim ∧ Config.default.maxDim ≤ 3) ∧
    (Operation.matvec true .double (1, .longlong) (1, .longlong) (1, .longlong)).Supported Config.default ∧
    (Operation.matvec true .double (1, .longlong) (1, .longlong) (1, .longlong)).Restricted := by
  simp [Operation.Supported, Operation.Restricted, Config.default, Config.entryOn, Config.indexOn]

end Verif.Startup
