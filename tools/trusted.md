## 4. Trusted base

* Lean's kernel (4.33.0) and Mathlib's definitions of ℚ, ℝ, lists, trigonometric functions, interval integrals.
* The axioms `propext`, `Classical.choice` and `Quot.sound`, and no others; section 7 lists them per theorem. No axiom is added, no proof
  uses `sorry`, `admit`, `native_decide` or `bv_decide`.
* The fidelity of the definitions to the lines they cite, and the conventions of section 2. Section 6 lists the functions that are
  modelled and those that are not.
* For the modules under `Verif/Float` (C141 and later): that double arithmetic is a rounding in the sense of `Rounding` (relative error
  2^-53, monotonic, exact on 53-bit multiples of powers of two) applied to each operation as written, without overflow, underflow, fused or
  extended operations, and that `//` and `%` on floats give the floor of the exact quotient of their operands and its remainder; that
  conversion to C `float` is a monotonic rounding to 24 bits (`Single`, C146).
* For C169: that the C library's `sqrt` is a `Root` (a floating-point number within two units of relative rounding, exact where the root is
  representable); `someRoot` shows that such a function exists.
* About libraries, as written beside each definition: `pyproj.transform` and `Geod` are functions of their arguments that return tuples,
  `copy.deepcopy` of an object that wraps a C pointer raises `TypeError`, and `CoordString(v)` without `ring=True` is not a ring.
