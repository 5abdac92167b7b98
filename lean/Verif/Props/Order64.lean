import Verif.Proofs.C64.NeonOrder
import Verif.Props.C64
import Verif.Props.Order

/-!
# C53: the byte order of the host, 64-bit variant

c64/baokeshed64_neon.c has the same remark as the 32-bit file ("TODO: This is probably incorrect for big-endian ARM.
How should that work?", c64/baokeshed64_neon.c:5).  It transposes by storing the vectors and reading them as arrays of
`uint64_t`, so on big-endian hosts it computes something else than the 32-bit code does there.
-/

set_option linter.unusedVariables false

namespace Baokeshed.Props
open Baokeshed.Model Baokeshed.Proofs

attribute [local irreducible] Spec64.compress Spec64.cvBytes

/-- The groups of bytes that copying 64-bit words reverses. -/
def wordGroup64 : ByteOrder → Nat
  | .little => 1
  | .bigA64 | .bigA32 => 8

/-- The number of the input whose result is at position `i`: big-endian AArch64 exchanges the results of a pair. -/
def pairSource : ByteOrder → Nat → Nat
  | .bigA64, i => if i % 2 = 0 then i + 1 else i - 1
  | .little, i | .bigA32, i => i

/-- The 32 bytes that `baokeshed64_hash_many_neon` writes at position `i` of `num` on a host of order `o`: the words of
inputs taken in pairs are read with their bytes reversed, and the result is written in reversed groups; the input that
remains is read correctly and its result is written as reversed words. -/
def neonResult64 (o : ByteOrder) (key : Vector U64 4) (offset step : U64) (flags first last : Byte) (blocks num : Nat)
    (inputs : List Bytes) (i : Nat) : Bytes :=
  if i < 2 * (num / 2) then
    let j := pairSource o i
    Spec.revGroups (vecGroup o) (Spec64.cvBytes (Spec64.blockChain key (offset + BitVec.ofNat 64 j * step) flags first last blocks
      (Spec.revGroups (wordGroup64 o) ((inputs.getD j []).take (128 * blocks)))))
  else Spec.revGroups (wordGroup64 o) (Spec64.cvBytes (Spec64.blockChain key (offset + BitVec.ofNat 64 i * step) flags first last
    blocks (inputs.getD i [])))

/-- C53.  Exactly what `baokeshed64_hash_many_neon` computes on a host of any byte order. -/
theorem C53_c64_neon_exact (o : ByteOrder) (inputs : List Bytes) (num_inputs blocks : Nat) (key : Vector U64 4) (offset d : U64)
    (deltas : List U64) (flags fs fe : Byte) (out : Bytes)
    (h : HashManyPre64 2 inputs num_inputs blocks d deltas out) :
    C64.Neon.hash_many_neon o inputs num_inputs blocks key offset deltas flags fs fe out =
      .ok ((List.range num_inputs).flatMap (neonResult64 o key offset d flags fs fe blocks num_inputs inputs) ++
        out.drop (32 * num_inputs)) := by
  rw [C64.Neon.hash_many_neon, Proofs.W64.Neon.loop2_swap o key d flags fs fe blocks deltas h.deltas num_inputs inputs offset out
    h.num h.len h.room]
  have hv : Proofs.C.Neon.vk o = vecGroup o := by cases o <;> rfl
  have hw : Proofs.W64.Neon.wk o = wordGroup64 o := by cases o <;> rfl
  have hs : ∀ i, Proofs.W64.Neon.src o i = pairSource o i := by intro i; cases o <;> rfl
  refine congrArg (fun f => Except.ok ((List.range num_inputs).flatMap f ++ out.drop (32 * num_inputs))) (funext fun i => ?_)
  rw [Proofs.W64.Neon.res, neonResult64, Proofs.W64.Neon.pairRes, Proofs.W64.Neon.oneRes, hs, hv, hw]

-- three inputs: two are taken together, one is left
example : HashManyPre64 2 [rep 128 3, rep 128 4, rep 128 5] 3 1 4096 [0, 4096, 8192] (rep 96 0) :=
  ⟨by decide, by intro i hi; rcases i with _ | _ | _ | i <;> simp; omega, by simp, by
    intro i hi; rcases i with _ | _ | _ | i <;> first | decide | omega⟩

/-! ## Blocks of zeros -/

theorem zeroBlock64 : Spec64.blockChain (Vector.replicate 4 0) 0 0 0 0 1 (rep 128 0) =
    #v[0xcda687a507cc910e, 0x17ae2bedb19ab56b, 0x1f697d835f8e02b9, 0xa0a523e4b3bd6f57] := by
  have hp : Spec64.pad (rep 128 0) = Vector.replicate 128 0 := by decide +kernel
  show Spec64.compress ⟨Vector.replicate 4 0, Spec64.pad ((rep 128 0).drop 0), 128, 0, _⟩ = _
  rw [List.drop_zero, hp, ← Proofs.W64.compress_eq]
  decide +kernel

theorem revGroups_zeros (k n : Nat) (hk : 0 < k) : Spec.revGroups k (rep n 0) = rep n 0 := by
  induction hn : n using Nat.strongRecOn generalizing n with
  | ind m ih =>
    subst hn
    by_cases h : n = 0
    · subst h; exact Proofs.C.Neon.revGroups_nil k
    · rw [Proofs.C.Neon.revGroups_cons k hk _ (by
        intro h0
        have := congrArg List.length h0
        simp [rep] at this
        exact h this)]
      rw [rep, List.take_replicate, List.drop_replicate, List.reverse_replicate]
      have := ih (n - k) (by omega) (n - k) rfl
      rw [rep] at this
      rw [this, List.replicate_append_replicate]
      exact congrArg (fun m => List.replicate m (0 : Byte)) (by omega)

/-- C53.  So this back end does not work on big-endian ARM either: for any number of blocks of zeros it does not write what
the portable code writes. -/
theorem C53_c64_wrong (o : ByteOrder) (ho : o ≠ .little) (n : Nat) (hn : 0 < n) (out : Bytes) (hout : 32 * n ≤ out.length) :
    ∃ a b,
      C64.Neon.hash_many_neon o (List.replicate n (rep 128 0)) n 1 (Vector.replicate 4 0) 0 (List.replicate 3 0) 0 0 0 out = .ok a ∧
      C64.Portable.hash_many_portable (List.replicate n (rep 128 0)) n 1 (Vector.replicate 4 0) 0 (List.replicate 3 0) 0 0 0 out = .ok b ∧
      a ≠ b := by
  have hz : ∀ i, i < n → (List.replicate n (rep 128 0)).getD i [] = rep 128 0 := by
    intro i hi
    rw [List.getD_eq_getElem?_getD, List.getElem?_replicate, if_pos hi]; rfl
  have hl : (rep 128 0).length = 128 := List.length_replicate
  have hm : ∀ x : U64, x * 0 = 0 := fun x => BitVec.mul_zero
  have ha : (0 : U64) + 0 = 0 := by decide
  have hpre : HashManyPre64 2 (List.replicate n (rep 128 0)) n 1 0 (List.replicate 3 0) out :=
    ⟨by rw [List.length_replicate]; exact Nat.le_refl n, fun i hi => by rw [hz i hi, hl]; decide, hout, fun i hi => by
      rw [List.getElem?_replicate, if_pos (by omega), hm]⟩
  refine ⟨_, _, C53_c64_neon_exact o _ _ _ _ _ _ _ _ _ _ _ hpre, C42_portable _ _ _ _ _ _ _ _ _ _ _ (hpre.mono (by decide)), ?_⟩
  obtain ⟨m, rfl⟩ : ∃ m, n = m + 1 := ⟨n - 1, by omega⟩
  have hr : List.range (m + 1) = 0 :: (List.range m).map Nat.succ := List.range_succ_eq_map
  rw [Spec64.manyOut, hr, List.flatMap_cons, List.flatMap_cons]
  have hcv : ∀ v : Vector U64 4, (Spec64.cvBytes v).length = 32 := Proofs.W64.length_cvBytes
  -- what the portable code writes first
  have h2 : Spec64.cvBytes (Spec64.blockChain (Vector.replicate 4 0) (0 + BitVec.ofNat 64 0 * 0) 0 0 0 1
      ((List.replicate (m + 1) (rep 128 0)).getD 0 [])) =
      Spec64.cvBytes #v[0xcda687a507cc910e, 0x17ae2bedb19ab56b, 0x1f697d835f8e02b9, 0xa0a523e4b3bd6f57] := by
    rw [hz 0 (by omega), show (0 : U64) + BitVec.ofNat 64 0 * 0 = 0 by decide, zeroBlock64]
  -- and what the NEON code writes there
  have h1 : ∃ k, (k = 8 ∨ k = 16) ∧ neonResult64 o (Vector.replicate 4 0) 0 0 0 0 0 1 (m + 1) (List.replicate (m + 1) (rep 128 0)) 0 =
      Spec.revGroups k (Spec64.cvBytes #v[0xcda687a507cc910e, 0x17ae2bedb19ab56b, 0x1f697d835f8e02b9, 0xa0a523e4b3bd6f57]) := by
    have hw : wordGroup64 o = 8 := by
      cases o with
      | little => exact absurd rfl ho
      | bigA64 => rfl
      | bigA32 => rfl
    have hv : vecGroup o = 8 ∨ vecGroup o = 16 := by
      cases o with
      | little => exact absurd rfl ho
      | bigA64 => exact Or.inr rfl
      | bigA32 => exact Or.inl rfl
    rw [neonResult64]
    by_cases h : 0 < 2 * ((m + 1) / 2)
    · have hs : pairSource o 0 < m + 1 := by
        cases o with
        | little => exact absurd rfl ho
        | bigA64 => show 1 < m + 1; omega
        | bigA32 => show 0 < m + 1; omega
      refine ⟨vecGroup o, hv, ?_⟩
      rw [if_pos h]
      dsimp only
      rw [hz _ hs, hm, ha, hw, List.take_of_length_le (by rw [hl]; decide), revGroups_zeros 8 128 (by decide), zeroBlock64]
    · refine ⟨8, Or.inl rfl, ?_⟩
      rw [if_neg h, hz 0 (by omega), hm, ha, hw, zeroBlock64]
  obtain ⟨k, hk, h1⟩ := h1
  rw [h1, h2]
  intro heq
  rw [List.append_assoc, List.append_assoc] at heq
  have h3 := (List.append_inj heq (by rw [Proofs.C.Neon.length_revGroups _ (by omega)])).1
  have h4 := congrArg (fun l => l.getD 0 0) h3
  have hb := Proofs.W64.cvBytes_toList #v[0xcda687a507cc910e, 0x17ae2bedb19ab56b, 0x1f697d835f8e02b9, 0xa0a523e4b3bd6f57]
  rcases hk with rfl | rfl
  · have h5 := Proofs.C.Neon.getD_revGroups 8 (by decide)
      (Spec64.cvBytes #v[0xcda687a507cc910e, 0x17ae2bedb19ab56b, 0x1f697d835f8e02b9, 0xa0a523e4b3bd6f57]) 0 0 (by decide) (by rw [hcv]; decide)
    have h6 := h5.symm.trans h4
    rw [hb] at h6
    revert h6
    decide
  · have h5 := Proofs.C.Neon.getD_revGroups 16 (by decide)
      (Spec64.cvBytes #v[0xcda687a507cc910e, 0x17ae2bedb19ab56b, 0x1f697d835f8e02b9, 0xa0a523e4b3bd6f57]) 0 0 (by decide) (by rw [hcv]; decide)
    have h6 := h5.symm.trans h4
    rw [hb] at h6
    revert h6
    decide

end Baokeshed.Props
