/-
What "the lazy result is that array" means.
-/
import Verif.Dask.Blockwise

set_option autoImplicit false

namespace Verif.Dask

variable {α : Type*}

/-- Chunks of one axis as dask keeps them: at least one, none empty unless the axis is. -/
def GoodChunks (c : List Nat) : Prop := c = [0] ∨ (c ≠ [] ∧ ∀ x ∈ c, 0 < x)

/-- An array with `n` axes. -/
def DArr.Valid (d : DArr α) (n : Nat) : Prop := d.chunks.length = n ∧ ∀ c ∈ d.chunks, GoodChunks c

/-- Chunks and extent of axis `k`. -/
def DArr.axis (d : DArr α) (k : Nat) : List Nat := d.chunks.getD k []

def DArr.dim (d : DArr α) (k : Nat) : Nat := (d.axis k).sum

/-- Block indices of a chunked array. -/
def IsBlock (chunks : List (List Nat)) (b : List Nat) : Prop := List.Forall₂ (fun j c => j < c.length) b chunks

/-- Indices of an array with these extents. -/
def IsIndex (shape : List Nat) (i : List Nat) : Prop := List.Forall₂ (· < ·) i shape

/-- The blocks compute `a`: the extents agree, and every block is computed, has the declared extents and holds the part
of `a` that starts where the block does. -/
def Lazy.Computes (l : Lazy α) (a : NArr α) : Prop :=
  l.chunks.map List.sum = a.shape ∧
  ∀ b, IsBlock l.chunks b → ∃ blk, l.block b = .ok blk ∧ blk.shape = List.zipWith blockSize l.chunks b ∧
    ∀ i, IsIndex blk.shape i → blk.val i = a.val (List.zipWith (· + ·) (List.zipWith blockOff l.chunks b) i)

/-- The lazy result stands for the outcome of the numpy function on the whole arrays: its blocks compute that array, or
one of them raises the exception. -/
def Lazy.Agrees (l : Lazy α) (r : Except PyErr (NArr α)) : Prop :=
  match r with
  | .ok a => l.Computes a
  | .error e => ∃ b, IsBlock l.chunks b ∧ l.block b = .error e

end Verif.Dask
