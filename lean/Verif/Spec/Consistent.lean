import Verif.Spec.Observe
/-!
# Consistent rings

What the numbers in the control block must satisfy for the ring to be in working order, whatever the
history of the file: nothing here refers to calls.  (The file format: src/internals.txt, src/shr.c:30-55.)
-/
namespace Shr

/-- The `j`-th slot, counted from the eldest message present. -/
def Ring.slotAt (r : Ring) (j : Nat) : Slot := r.mv.getD ((r.e + j) % r.mm) ⟨0, 0⟩

/-- Total length of the `j` eldest messages present. -/
def Ring.lensTo (r : Ring) (j : Nat) : Nat := ((List.range j).map fun i => (r.slotAt i).len).sum

/-- The ring is in working order: the messages present are nonempty, lie one behind the other in the
data area (circularly), the last of them ends at the write position, and together they do not exceed the
data area; the last `m` of them are the unread ones, `r` is the slot of the first of these, and `u` is
their total length. -/
structure Ring.Consistent (x : Ring) : Prop where
  e : x.e < x.mm
  i : x.i < x.n
  mp : x.mp ≤ x.mm
  m : x.m ≤ x.mp
  len : ∀ j < x.mp, 0 < (x.slotAt j).len
  fit : x.lensTo x.mp ≤ x.n
  pos : ∀ j < x.mp, (x.slotAt j).pos = (x.i + x.n - (x.lensTo x.mp - x.lensTo j)) % x.n
  r : x.r = (x.e + (x.mp - x.m)) % x.mm
  u : x.u = x.lensTo x.mp - x.lensTo (x.mp - x.m)

instance (x : Ring) : Decidable x.Consistent :=
  decidable_of_iff (x.e < x.mm ∧ x.i < x.n ∧ x.mp ≤ x.mm ∧ x.m ≤ x.mp ∧ (∀ j < x.mp, 0 < (x.slotAt j).len) ∧
      x.lensTo x.mp ≤ x.n ∧ (∀ j < x.mp, (x.slotAt j).pos = (x.i + x.n - (x.lensTo x.mp - x.lensTo j)) % x.n) ∧
      x.r = (x.e + (x.mp - x.m)) % x.mm ∧ x.u = x.lensTo x.mp - x.lensTo (x.mp - x.m))
    ⟨fun ⟨a, b, c, d, e, f, g, h, i⟩ => ⟨a, b, c, d, e, f, g, h, i⟩,
     fun ⟨a, b, c, d, e, f, g, h, i⟩ => ⟨a, b, c, d, e, f, g, h, i⟩⟩

/-- The control block of a farm ring is in working order: its numbers fit to each other (`Ring.Consistent`), and all messages present count as unread
(a farm ring has no common reading position). -/
structure Ring.FarmSound (r : Ring) : Prop where
  cons : r.Consistent
  all : r.m = r.mp

instance (r : Ring) : Decidable r.FarmSound := decidable_of_iff (r.Consistent ∧ r.m = r.mp) ⟨fun ⟨a, b⟩ => ⟨a, b⟩, fun ⟨a, b⟩ => ⟨a, b⟩⟩

/-- The numbers in `p` fit to each other, if the ring was `s` before the call that was interrupted: the
write position has not moved, the read position and the number of unread bytes have moved by as many
messages as the number of unread messages has, and the eldest position by as many as the number of
messages present has. -/
structure Ring.Settled (s p : Ring) : Prop where
  i : p.i = s.i
  m : p.m ≤ s.m
  r : p.r = (s.r + (s.m - p.m)) % s.mm
  u : p.u + bytesOf (s.unreadMsgs.take (s.m - p.m)) = s.u
  mp : p.mp ≤ s.mp
  m_mp : p.m ≤ p.mp
  e : p.e = (s.e + (s.mp - p.mp)) % s.mm

end Shr
