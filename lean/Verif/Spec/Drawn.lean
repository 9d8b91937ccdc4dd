import Verif.Model.Snark

/-
An environment in which the prover's random values and all challenges are given: the random oracle of
an honest run.  In such a run every challenge is asked for a transcript of another length, except for
the challenge that is derived a second time with the first entry 2.
-/

namespace VO

variable {F G1 G2 GT : Type} [Field F] [DecidableEq F]
  [AddCommGroup G1] [Module F G1] [AddCommGroup G2] [Module F G2] [AddCommGroup GT] [Module F GT]

/-- The environment `env` in which the prover draws the values `rs` in this order, a transcript of `k`
entries gives the challenge listed for `k` in `cs`, and a transcript that begins with 2 gives
`second`. -/
def Env.drawn (env : Env F G1 G2 GT) (rs : List F) (cs : List (ℕ × F)) (second : F) :
    Env F G1 G2 GT :=
  { env with
    rngF := fun i => rs.getD i 0
    hash := fun tr =>
      match tr with
      | .fld a :: _ => if a = 2 then second else (cs.lookup tr.length).getD 0
      | _ => (cs.lookup tr.length).getD 0 }

end VO
