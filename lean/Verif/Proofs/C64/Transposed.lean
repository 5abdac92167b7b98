import Verif.Proofs.C64.Portable
import Verif.Proofs.Transposed

/-! # The transposed round on 64-bit lanes, generically in the vector type

As `Verif.Proofs.Transposed`, for the `round_fn` functions of /repo/c64. -/

set_option linter.unusedVariables false
set_option linter.unusedSimpArgs false

namespace Baokeshed.Proofs.W64
open Baokeshed.Model Baokeshed.Model.Portable64

/-- vector operations of the transposed round -/
structure Ops (V : Type) where
  add : V → V → V
  xor : V → V → V
  rot32 : V → V
  rot24 : V → V
  rot16 : V → V
  rot63 : V → V

def Ops.round {V : Type} (o : Ops V) (v m : Vector V 16) (p : Vector (Fin 16) 16) : Vector V 16 :=
  let v0 : V := v.get 0
  let v1 : V := v.get 1
  let v2 : V := v.get 2
  let v3 : V := v.get 3
  let v4 : V := v.get 4
  let v5 : V := v.get 5
  let v6 : V := v.get 6
  let v7 : V := v.get 7
  let v8 : V := v.get 8
  let v9 : V := v.get 9
  let v10 : V := v.get 10
  let v11 : V := v.get 11
  let v12 : V := v.get 12
  let v13 : V := v.get 13
  let v14 : V := v.get 14
  let v15 : V := v.get 15
  let v0 : V := o.add v0 (m.get (p.get 0))
  let v1 : V := o.add v1 (m.get (p.get 2))
  let v2 : V := o.add v2 (m.get (p.get 4))
  let v3 : V := o.add v3 (m.get (p.get 6))
  let v0 : V := o.add v0 v4
  let v1 : V := o.add v1 v5
  let v2 : V := o.add v2 v6
  let v3 : V := o.add v3 v7
  let v12 : V := o.xor v12 v0
  let v13 : V := o.xor v13 v1
  let v14 : V := o.xor v14 v2
  let v15 : V := o.xor v15 v3
  let v12 : V := o.rot32 v12
  let v13 : V := o.rot32 v13
  let v14 : V := o.rot32 v14
  let v15 : V := o.rot32 v15
  let v8 : V := o.add v8 v12
  let v9 : V := o.add v9 v13
  let v10 : V := o.add v10 v14
  let v11 : V := o.add v11 v15
  let v4 : V := o.xor v4 v8
  let v5 : V := o.xor v5 v9
  let v6 : V := o.xor v6 v10
  let v7 : V := o.xor v7 v11
  let v4 : V := o.rot24 v4
  let v5 : V := o.rot24 v5
  let v6 : V := o.rot24 v6
  let v7 : V := o.rot24 v7
  let v0 : V := o.add v0 (m.get (p.get 1))
  let v1 : V := o.add v1 (m.get (p.get 3))
  let v2 : V := o.add v2 (m.get (p.get 5))
  let v3 : V := o.add v3 (m.get (p.get 7))
  let v0 : V := o.add v0 v4
  let v1 : V := o.add v1 v5
  let v2 : V := o.add v2 v6
  let v3 : V := o.add v3 v7
  let v12 : V := o.xor v12 v0
  let v13 : V := o.xor v13 v1
  let v14 : V := o.xor v14 v2
  let v15 : V := o.xor v15 v3
  let v12 : V := o.rot16 v12
  let v13 : V := o.rot16 v13
  let v14 : V := o.rot16 v14
  let v15 : V := o.rot16 v15
  let v8 : V := o.add v8 v12
  let v9 : V := o.add v9 v13
  let v10 : V := o.add v10 v14
  let v11 : V := o.add v11 v15
  let v4 : V := o.xor v4 v8
  let v5 : V := o.xor v5 v9
  let v6 : V := o.xor v6 v10
  let v7 : V := o.xor v7 v11
  let v4 : V := o.rot63 v4
  let v5 : V := o.rot63 v5
  let v6 : V := o.rot63 v6
  let v7 : V := o.rot63 v7
  let v0 : V := o.add v0 (m.get (p.get 8))
  let v1 : V := o.add v1 (m.get (p.get 10))
  let v2 : V := o.add v2 (m.get (p.get 12))
  let v3 : V := o.add v3 (m.get (p.get 14))
  let v0 : V := o.add v0 v5
  let v1 : V := o.add v1 v6
  let v2 : V := o.add v2 v7
  let v3 : V := o.add v3 v4
  let v15 : V := o.xor v15 v0
  let v12 : V := o.xor v12 v1
  let v13 : V := o.xor v13 v2
  let v14 : V := o.xor v14 v3
  let v15 : V := o.rot32 v15
  let v12 : V := o.rot32 v12
  let v13 : V := o.rot32 v13
  let v14 : V := o.rot32 v14
  let v10 : V := o.add v10 v15
  let v11 : V := o.add v11 v12
  let v8 : V := o.add v8 v13
  let v9 : V := o.add v9 v14
  let v5 : V := o.xor v5 v10
  let v6 : V := o.xor v6 v11
  let v7 : V := o.xor v7 v8
  let v4 : V := o.xor v4 v9
  let v5 : V := o.rot24 v5
  let v6 : V := o.rot24 v6
  let v7 : V := o.rot24 v7
  let v4 : V := o.rot24 v4
  let v0 : V := o.add v0 (m.get (p.get 9))
  let v1 : V := o.add v1 (m.get (p.get 11))
  let v2 : V := o.add v2 (m.get (p.get 13))
  let v3 : V := o.add v3 (m.get (p.get 15))
  let v0 : V := o.add v0 v5
  let v1 : V := o.add v1 v6
  let v2 : V := o.add v2 v7
  let v3 : V := o.add v3 v4
  let v15 : V := o.xor v15 v0
  let v12 : V := o.xor v12 v1
  let v13 : V := o.xor v13 v2
  let v14 : V := o.xor v14 v3
  let v15 : V := o.rot16 v15
  let v12 : V := o.rot16 v12
  let v13 : V := o.rot16 v13
  let v14 : V := o.rot16 v14
  let v10 : V := o.add v10 v15
  let v11 : V := o.add v11 v12
  let v8 : V := o.add v8 v13
  let v9 : V := o.add v9 v14
  let v5 : V := o.xor v5 v10
  let v6 : V := o.xor v6 v11
  let v7 : V := o.xor v7 v8
  let v4 : V := o.xor v4 v9
  let v5 : V := o.rot63 v5
  let v6 : V := o.rot63 v6
  let v7 : V := o.rot63 v7
  let v4 : V := o.rot63 v4
  #v[v0, v1, v2, v3, v4, v5, v6, v7, v8, v9, v10, v11, v12, v13, v14, v15]

/-- `L` reads one 64-bit lane of a vector -/
structure LaneHom {V : Type} (o : Ops V) (L : V → U64) : Prop where
  add : ∀ a b, L (o.add a b) = L a + L b
  xor : ∀ a b, L (o.xor a b) = L a ^^^ L b
  rot32 : ∀ a, L (o.rot32 a) = (L a).rotateRight 32
  rot24 : ∀ a, L (o.rot24 a) = (L a).rotateRight 24
  rot16 : ∀ a, L (o.rot16 a) = (L a).rotateRight 16
  rot63 : ∀ a, L (o.rot63 a) = (L a).rotateRight 63

/-- `Spec64.mix` with the additions in the order of the vector code -/
def mixA (a b c d x y : U64) : U64 × U64 × U64 × U64 :=
  let a := a + x + b
  let d := (d ^^^ a).rotateRight 32
  let c := c + d
  let b := (b ^^^ c).rotateRight 24
  let a := a + y + b
  let d := (d ^^^ a).rotateRight 16
  let c := c + d
  let b := (b ^^^ c).rotateRight 63
  (a, b, c, d)

theorem mixA_eq (a b c d x y : U64) : Spec64.mix a b c d x y = mixA a b c d x y := by
  have arc : ∀ a b c : U64, a + b + c = a + c + b := fun a b c => by
    rw [BitVec.add_assoc, BitVec.add_comm b, ← BitVec.add_assoc]
  have h1 := arc a b x
  simp only [Spec64.mix, mixA, h1, arc _ (BitVec.rotateRight _ 24) y]

theorem Ops.round_lane {V : Type} (o : Ops V) (L : V → U64) (h : LaneHom o L)
    (v m : Vector V 16) (p : Vector (Fin 16) 16) :
    (o.round v m p).map L = roundP (v.map L) (m.map L) p := by
  have hm : ∀ k : Fin 16, (m.map L)[k] = L (m.get k) := fun k => by simp [Vector.get]
  have h0 : (m.map L)[p[0]] = L (m.get (p.get 0)) := hm (p.get 0)
  have h1 : (m.map L)[p[1]] = L (m.get (p.get 1)) := hm (p.get 1)
  have h2 : (m.map L)[p[2]] = L (m.get (p.get 2)) := hm (p.get 2)
  have h3 : (m.map L)[p[3]] = L (m.get (p.get 3)) := hm (p.get 3)
  have h4 : (m.map L)[p[4]] = L (m.get (p.get 4)) := hm (p.get 4)
  have h5 : (m.map L)[p[5]] = L (m.get (p.get 5)) := hm (p.get 5)
  have h6 : (m.map L)[p[6]] = L (m.get (p.get 6)) := hm (p.get 6)
  have h7 : (m.map L)[p[7]] = L (m.get (p.get 7)) := hm (p.get 7)
  have h8 : (m.map L)[p[8]] = L (m.get (p.get 8)) := hm (p.get 8)
  have h9 : (m.map L)[p[9]] = L (m.get (p.get 9)) := hm (p.get 9)
  have h10 : (m.map L)[p[10]] = L (m.get (p.get 10)) := hm (p.get 10)
  have h11 : (m.map L)[p[11]] = L (m.get (p.get 11)) := hm (p.get 11)
  have h12 : (m.map L)[p[12]] = L (m.get (p.get 12)) := hm (p.get 12)
  have h13 : (m.map L)[p[13]] = L (m.get (p.get 13)) := hm (p.get 13)
  have h14 : (m.map L)[p[14]] = L (m.get (p.get 14)) := hm (p.get 14)
  have h15 : (m.map L)[p[15]] = L (m.get (p.get 15)) := hm (p.get 15)
  have hv : v.map L = _ := (congrArg (Vector.map L) (vec16_eta v)).trans (map16 L _ _ _ _ _ _ _ _ _ _ _ _ _ _ _ _)
  rw [hv]
  unfold roundP
  simp only [h0, h1, h2, h3, h4, h5, h6, h7, h8, h9, h10, h11, h12, h13, h14, h15]
  simp only [g_0_4, g_1_5, g_2_6, g_3_7, g_0_5, g_1_6, g_2_7, g_3_4]
  simp only [mixA_eq, Ops.round, map16, h.add, h.xor, h.rot32, h.rot24, h.rot16, h.rot63, mixA]

end Baokeshed.Proofs.W64
