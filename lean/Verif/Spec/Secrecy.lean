import Verif.Model.Lib

/-! Specification of what a coalition sees of the dealings, for property C71. -/

namespace Verif.Spec

/-- The random stream of a dealer whose coefficients are `c`. -/
def withCoeffs {t : ℕ} (c : Fin t → Fr) (rest : ℕ → Fr) : ℕ → Fr :=
  fun k => if h : k < t then c ⟨k, h⟩ else rest k

/-- All `n` members create their parameters, member `j + 1` with the random stream `draw j`, for the
public keys of the secrets `sks`; `gp` are the aggregated parameters. -/
def Run (mask : Mask) (t n : ℕ) (sks : List Fq) (draw : ℕ → ℕ → Fr) (dealings : List DkgMemberParams)
    (gp : DkgGlobalPubParams) : Prop :=
  (List.range n).mapM (fun j => DkgMemberParams.new mask ⟨t, n⟩
      (sks.map (fun sk => (MemberKey.random sk).pk)) (draw j)) = .ok dealings ∧
    dkgGlobalPublicParams (dealings.map (·.publicParams)) = .ok gp

/-- The members of the coalition `S` decrypt their shares in this dealing to the values `obs`. -/
def Sees (mask : Mask) (sks : List Fq) (S : Finset ℕ) (dealing : DkgMemberParams) (obs : ℕ → Fr) : Prop :=
  ∀ i ∈ S, ∃ sk c, sks[i - 1]? = some sk ∧ dealing.publicParams.ciphers[i - 1]? = some c ∧
    (MemberKey.random sk).decryptShare mask dealing.publicParams.gr c = obs i

end Verif.Spec
