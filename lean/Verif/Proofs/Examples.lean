import Verif.Proofs.Lookup
import Verif.Spec.Toy

/-!
# Facts about the concrete buffers used by the examples
-/
namespace Tf2

/-- Integer translations satisfy the laws. -/
theorem toyLaws : RigidLaws (X := Int) (fun _ => True) := by
  constructor <;> intros <;> first | trivial | simp only [Rigid.comp, Rigid.inv, Rigid.one] <;> omega

theorem toyOffered (ops : List (Op Int)) : AllOffered (fun _ => True) ops := fun _ _ _ _ => trivial

/-- In `exBuf` at time 15: `b → a → w` and `c → a → w`; the chain of `c` ends at `w`. -/
theorem ex_edges : ParentAt exBuf 15 3 1 (150 : Int) ∧ ParentAt exBuf 15 4 1 (1000 : Int) ∧
    ParentAt exBuf 15 1 2 (2 : Int) ∧ ¬ ∃ p e, ParentAt exBuf 15 2 p e :=
  ⟨⟨by decide, _, _, rfl, rfl, rfl, rfl⟩, ⟨by decide, _, _, rfl, rfl, rfl, rfl⟩,
    ⟨by decide, _, _, rfl, rfl, rfl, rfl⟩, no_parent_of_no_cache rfl⟩

theorem ex_root_b : EndsAt exBuf 15 3 2 2 :=
  ⟨⟨_, .snoc (.snoc .refl ex_edges.1) ex_edges.2.2.1⟩, ex_edges.2.2.2⟩

theorem ex_root_c : EndsAt exBuf 15 4 2 2 :=
  ⟨⟨_, .snoc (.snoc .refl ex_edges.2.1) ex_edges.2.2.1⟩, ex_edges.2.2.2⟩

theorem loop_edges : ParentAt loopBuf 10 1 2 (1 : Int) ∧ ParentAt loopBuf 10 2 1 (2 : Int) ∧
    ParentAt loopBuf 10 3 4 (3 : Int) ∧ ¬ ∃ p e, ParentAt loopBuf 10 4 p e :=
  ⟨⟨by decide, _, _, rfl, rfl, rfl, rfl⟩, ⟨by decide, _, _, rfl, rfl, rfl, rfl⟩,
    ⟨by decide, _, _, rfl, rfl, rfl, rfl⟩, no_parent_of_no_cache rfl⟩

theorem loop_chain (n : Nat) : ∃ c x, Chain loopBuf 10 1 c x n ∧ (c = 1 ∨ c = 2) := by
  induction n with
  | zero => exact ⟨1, _, .refl, Or.inl rfl⟩
  | succ n ih =>
    obtain ⟨c, x, hc, rfl | rfl⟩ := ih
    · exact ⟨2, _, .snoc hc loop_edges.1, Or.inr rfl⟩
    · exact ⟨1, _, .snoc hc loop_edges.2.1, Or.inl rfl⟩

end Tf2
