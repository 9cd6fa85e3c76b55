/- Model of the vector macros of /repo/modules/core/include/c_include/vector.h. -/
import Verif.Base.Sem

namespace HyperCV

/-- bit pattern of an object of `w` bytes at byte offset `off` of block `h` -/
def loadAt (w : Nat) (h : Nat) (off : Int) : M Nat := do
  let bs ← loadBytes h w off
  pure (leNat bs)

/-- store the bit pattern `v` in `w` bytes at byte offset `off` of block `h` -/
def storeAt (w : Nat) (h : Nat) (off : Int) (v : Nat) : M Unit := storeBytes h v w off

/-- conversion to `size_t` -/
def usize (x : Int) : Nat := (x % 18446744073709551616).toNat

/-- `realloc(p, n)` of a whole block: the contents move to a new block (the rest of it is arbitrary) and the old
block is freed.  (Simplification: the new block always has a new handle; the code never uses the old pointer
afterwards.  Failure of `realloc` is not modelled.) -/
def realloc (h n : Nat) : M Nat := fun m =>
  match m.blk h with
  | none => .error (.ub .badFree)
  | some l => .ok (m.next,
      { m with
        blk := fun x => if x = m.next then some (tab n fun p => (l[p]?).getD (m.junk m.next p))
          else if x = h then none else m.blk x
        next := m.next + 1 })

/-! A vector is a pointer to its first element, which lies two `size_t` words (16 bytes: size, then capacity)
after the start of the allocation.  The model represents the pointer by the handle of the allocation; element
`i` of `E` bytes is at byte offset `16 + i*E`. -/

/-- `vector_set_capacity`: vector.h:9-14 -/
def vector_set_capacity (vec : Option Nat) (size : Nat) : M Unit :=
  match vec with
  | none => pure ()
  | some h => storeAt 8 h 8 size

/-- `vector_set_size`: vector.h:22-27 -/
def vector_set_size (vec : Option Nat) (size : Nat) : M Unit :=
  match vec with
  | none => pure ()
  | some h => storeAt 8 h 0 size

/-- `vector_capacity`: vector.h:34-35 -/
def vector_capacity (vec : Option Nat) : M Nat :=
  match vec with
  | none => pure 0
  | some h => loadAt 8 h 8

/-- `vector_size`: vector.h:42-43 -/
def vector_size (vec : Option Nat) : M Nat :=
  match vec with
  | none => pure 0
  | some h => loadAt 8 h 0

/-- `vector_empty`: vector.h:50-51 -/
def vector_empty (vec : Option Nat) : M Bool := do
  let n ← vector_size vec
  pure (n = 0)

/-- `vec[i]`: reading an element of `E` bytes; dereferencing NULL is undefined -/
def vector_at (E : Nat) (vec : Option Nat) (i : Int) : M Nat :=
  match vec with
  | none => fail (.ub .nullDeref)
  | some h => loadAt E h (16 + i * E)

/-- `vec[i] = v` -/
def vector_put (E : Nat) (vec : Option Nat) (i : Int) (v : Nat) : M Unit :=
  match vec with
  | none => fail (.ub .nullDeref)
  | some h => storeAt E h (16 + i * E) v

/-- `vector_grow`: vector.h:59-74 (`E` is `sizeof(*(vec))`; `size_t` arithmetic wraps) -/
def vector_grow (E : Nat) (vec : Option Nat) (count : Nat) : M (Option Nat) :=
  match vec with
  | none => do
    let p ← malloc (usize (count * E + 16))
    vector_set_capacity (some p) count
    vector_set_size (some p) 0
    pure (some p)
  | some h => do
    let p ← realloc h (usize (count * E + 16))
    vector_set_capacity (some p) count
    pure (some p)

/-- `vector_pop_back`: vector.h:81-84 -/
def vector_pop_back (vec : Option Nat) : M Unit := do
  let n ← vector_size vec
  vector_set_size vec (usize ((n : Int) - 1))

/-- `vector_erase`: vector.h:92-104; the index is compared as a `size_t` -/
def vector_erase (E : Nat) (vec : Option Nat) (i : Int) : M Unit :=
  match vec with
  | none => pure ()
  | some h => do
    let sz ← vector_size (some h)
    if usize i < sz then do
      vector_set_size (some h) (usize ((sz : Int) - 1))
      forI (usize i) ((sz : Int) - 1) fun x => do
        let v ← vector_at E (some h) (x + 1)
        vector_put E (some h) x v
    else pure ()

/-- `vector_free`: vector.h:111-118; returns the new value of the variable -/
def vector_free (vec : Option Nat) : M (Option Nat) :=
  match vec with
  | none => pure none
  | some h => do
    free h
    pure none

/-- the first two steps of `vector_push_back` (vector.h:146-149): grow when full -/
def vector_reserve (E : Nat) (vec : Option Nat) : M (Option Nat) := do
  let cap ← vector_capacity vec
  let sz ← vector_size vec
  if cap ≤ sz then vector_grow E vec (if cap = 0 then usize (cap + 1) else usize (cap * 2))
  else pure vec

/-- `vector_push_back`: vector.h:144-152; returns the new value of the variable -/
def vector_push_back (E : Nat) (vec : Option Nat) (value : Nat) : M (Option Nat) := do
  let vec ← vector_reserve E vec
  let n ← vector_size vec
  vector_put E vec n value
  let n ← vector_size vec
  vector_set_size vec (usize (n + 1))
  pure vec

end HyperCV
