import Verif.Model.Tools

/-
A prover's use of evaluation caches: one left and one right cache per vector, filled on demand
(macro `define_vector_domain_evaluations_dict!`, `/repo/voproof/src/tools/mod.rs:1101-1124`).
-/

namespace VO

variable {F : Type} [Field F] [DecidableEq F]

/-- The caches of a proof, one left and one right cache for each vector id
(macro `define_vector_domain_evaluations_dict!`, tools/mod.rs:1101-1124). -/
structure Caches (F : Type) where
  left : ℕ → EvalDict F
  right : ℕ → EvalDict F

/-- All caches empty (tools/mod.rs:1101-1124). -/
def Caches.empty : Caches F := ⟨fun _ => [], fun _ => []⟩

/-- A sequence of multiplications `vecs i × vecs j`, each with the left cache of `i` and the right
cache of `j` (the calls of `vector_poly_mul!`, tools/mod.rs:1058-1089, made by a prover). -/
def runCached (fft : FftParams F) (omega : F) (vecs : ℕ → List F) :
    List (ℕ × ℕ) → Caches F → Res (List (List F))
  | [], _ => .ok []
  | (i, j) :: ops, c => do
    let (r, ld, rd) ← vectorPolyMulDict fft (vecs i) (vecs j) omega (c.left i) (c.right j)
    let rest ← runCached fft omega vecs ops
      ⟨Function.update c.left i ld, Function.update c.right j rd⟩
    return r :: rest

end VO
