# Formal model of LCIO in Lean 4: design

The subject is the C++ source in `/repo` (LCIO with its bundled SIO persistency library), read as text.
Nothing here was built or run against the C++ code.

## 1. Trusted base

* Lean 4.33.0's kernel. Every theorem is accepted by it and replayed by `vcheck`.
* Axioms: at most `propext`, `Classical.choice`, `Quot.sound`, for every theorem in `MANIFEST.json`. No axioms of our own, no `sorry`, no
  `native_decide`, no `bv_decide`. `decide +kernel` is used for concrete witnesses and finite tables only; it is checked by the kernel.
* The correspondence between the C++ text and the Lean definitions. Every definition cites the file and lines it models.
  This is checked by reading only, and by the seeded-bug experiments in `seeded/LOG.jsonl`.
* Assumptions about the platform, used everywhere: little-endian LP64 host (`SIO_LITTLE_ENDIAN`, 64-bit `size_t`, 32-bit `int`),
  IEEE floats handled as bit patterns, enough memory (allocation never fails), no I/O errors other than end of file unless stated.
* Parameters instead of models: the compression library (a pair of functions with `uncompress (compress x) = x`), the conversions between `float` and
  `double` where only their round trip matters (they are also defined exactly, in `Verif/Lcio/Float.lean`), the order in which `std::sort` leaves equal
  elements.

## 2. How the model is built

* Bytes are `UInt8`. Buffers, spans and files are `List UInt8`. Offsets and sizes are `Nat`, with explicit `% 2^32`
  where the C++ code truncates to `unsigned int`. 64-bit `size_t` arithmetic is assumed not to overflow.
* Every operation that can throw returns `Except Err`, where `Err` lists the error codes of the library.
  Undefined behaviour is a distinct outcome `Err.ub`; a loop that never ends is the distinct outcome `Err.diverge` (fuel ran out).
  A theorem `f x = .ok y` therefore also says that no undefined behaviour happens.
* A block's `write(device)` is modelled as the list of values it writes (`Item`), because the C++ handlers never look at
  the write device's state. A block's `read(device, version)` is a program over the read device (`RProg`), a small monad whose
  operations are the calls of the device.
* Object addresses are natural numbers; 0 is null. The memory addresses of the objects are arbitrary in every theorem.
* Read objects hold the raw match word in their pointer fields until relocation, as the C++ code does.
* Objects with state (writers, readers, events, bit fields, navigators and so on) are structures with one function per member function. Properties about
  histories quantify over lists of calls; the concurrent writer has an explicit schedule.

## 3. Layout

* `Verif/Sio/*`: model of the SIO library. `Verif/Lcio/*`: model of LCIO's I/O layer and event classes. `Verif/Util/*`: utilities.
* `Verif/Spec/*`: small independent specifications used in theorem statements.
* `Verif/Props/*`: the property theorems `Cnn_...` together with the examples that show their hypotheses can be met.
  Helper lemmas live in the model directories in `*Lemmas` files.
* `tools/`: scripts that write `properties.jsonl`, `MANIFEST.json`, `lean/Verif.lean` and this file.

## 4. Properties

For each property: what is modelled and how it is proved, then what came out. Where the code does not have the property, the negation is proved on a
concrete witness (`_fails_`), and the theorem that does hold is named `_partial`.
