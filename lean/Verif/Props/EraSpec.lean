import Verif.Model.Era
import Verif.Lemmas.E2store

/-! # Specification of era files -/

namespace Verif.Props.EraSpec
open Verif Verif.E2store Verif.Archive Verif.Era

/-- The fork of a slot, from the epochs (of 32 slots) of the forks: Bellatrix 144896, Capella 194048, Deneb 269568,
Electra 364032. -/
inductive ForkAt (slot : Nat) : Fork → Prop
  | bellatrix : 144896 ≤ slot / 32 → slot / 32 < 194048 → ForkAt slot .bellatrix
  | capella : 194048 ≤ slot / 32 → slot / 32 < 269568 → ForkAt slot .capella
  | deneb : 269568 ≤ slot / 32 → slot / 32 < 364032 → ForkAt slot .deneb
  | electra : 364032 ≤ slot / 32 → ForkAt slot .electra

/-- A slot index: starting slot, offsets, count, each as 8 bytes (little endian). -/
def indexRecord (b : BlockIndex) : UInt16 × Bytes :=
  (0x6932, toLe 8 b.startingNumber.toNat ++ (b.indices.flatMap fun i => toLe 8 i.toNat) ++ toLe 8 b.count.toNat)

/-- The records of an era file: version, blocks, state, index of the blocks, index of the state. -/
def records (blocks : List Bytes) (state : Bytes) (blockIndex stateIndex : BlockIndex) : List (UInt16 × Bytes) :=
  (0x6532, []) :: blocks.map (fun b => (0x0100, b)) ++ [(0x0200, state), indexRecord blockIndex, indexRecord stateIndex]

/-- The offset points to the start of the file: counted from the start of the index of the blocks, with the sign in two's
complement, it is minus the length of what comes before. -/
def PointsToStart (before : Nat) (offset : UInt64) : Prop := (before + offset.toNat) % 2 ^ 64 = 0

instance (n : Nat) (o : UInt64) : Decidable (PointsToStart n o) := inferInstanceAs (Decidable (_ = _))

/-- The slots with a block. -/
def slotsFrom (before : Nat) : Nat → List UInt64 → List Nat
  | _, [] => []
  | slot, off :: rest => if PointsToStart before off then slotsFrom before (slot + 1) rest else slot :: slotsFrom before (slot + 1) rest

/-- The blocks are the contents of the records, read with the forks of the slots. -/
def Reads {B : Type} (c : ForkCodec B) : List Nat → List Bytes → List B → Prop
  | [], [], [] => True
  | slot :: slots, raw :: raws, b :: bs => (∃ f, ForkAt slot f ∧ c.dec f raw = some b) ∧ Reads c slots raws bs
  | _, _, _ => False

/-- A file that holds an era. -/
def IsEra {B S : Type} (cb : ForkCodec B) (cs : ForkCodec S) (bs : Bytes) (e : Era B S) : Prop :=
  ∃ raws raw, bs = fileBytes (records raws raw e.blockIndex e.stateIndex) ∧
    (∀ r ∈ records raws raw e.blockIndex e.stateIndex, r.2.length + 8 < 2 ^ 32) ∧
    e.version = Entry.new 0x6532 [] ∧ e.blockIndex.indices.length = 8192 ∧ e.stateIndex.indices.length = 1 ∧
    (∀ s ∈ slotsFrom (bs.length - 65592) e.blockIndex.startingNumber.toNat e.blockIndex.indices, s < 2 ^ 64) ∧
    Reads cb (slotsFrom (bs.length - 65592) e.blockIndex.startingNumber.toNat e.blockIndex.indices) raws e.blocks ∧
    ∃ f, ForkAt e.stateIndex.startingNumber.toNat f ∧ cs.dec f raw = some e.state

end Verif.Props.EraSpec
