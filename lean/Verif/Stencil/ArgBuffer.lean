/-
Model of the argument buffer of the stencil tasks.
Packing: StencilGenerator.hpp:380-397 (and 487-503, 600-616 for the CSR variants); unpacking: StencilGenerator.cpp:24-40
(and the copies in the other tasks).  A trivially copyable C++ object is represented by its bytes; `memcpy` copies
bytes, `reinterpret_cast` reads them back.
-/
namespace Verif.Stencil

/-- `sizeof(args) + offsets_byte_size` bytes: the header followed by the records (memcpy of `offsets.data()`). -/
def packArgs {H R : Type _} (encH : H → List UInt8) (encR : R → List UInt8) (hdr : H) (recs : List R) : List UInt8 :=
  encH hdr ++ (recs.map encR).flatten

/-- `offset_ptr[i]`, StencilGenerator.cpp:35-40: the `i`-th group of `sizeR` bytes after the header. -/
def recordBytes (sizeR : Nat) (payload : List UInt8) (i : Nat) : List UInt8 := (payload.drop (i * sizeR)).take sizeR

/-- Decoding in the task, StencilGenerator.cpp:24-40.  `none`: an assertion fails (`arglen >= sizeof(Args)`,
`(arglen - sizeof(Args)) % sizeof(StencilData) == 0`). -/
def unpackArgs {H R : Type _} (sizeH sizeR : Nat) (decH : List UInt8 → H) (decR : List UInt8 → R)
    (args : List UInt8) : Option (H × List R) :=
  if args.length ≥ sizeH then
    if (args.length - sizeH) % sizeR = 0 then
      let numOffsets := (args.length - sizeH) / sizeR
      let hdr := decH (args.take sizeH)
      let payload := args.drop sizeH
      some (hdr, (List.range numOffsets).map fun i => decR (recordBytes sizeR payload i))
    else none
  else none

end Verif.Stencil
