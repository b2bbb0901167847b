import Verif.Model.Python
import Verif.Model.PythonObject
/-
Test vectors of the repository, evaluated on the model: a check of the model, not of the code, and
no part of any proof.  These are the literal cases of /repo/tests/ToByteArray.cpp,
/repo/tests/bigint_test_sa.cpp and /repo/bindings/python/test_python_bindings.py with the results the
test files expect; every line is evaluated by the kernel, with asserts enabled.
Cases whose test relies on a conversion the model calls undefined (INT64_MIN, ToByteArray.cpp:75)
are left out, as are those with numbers of more than 100 digits, which take too long to evaluate.
-/
namespace BigIntegerCpp.Vectors

/-- With asserts, shifts as GCC and Clang compile them. -/
local instance debug : Cfg := ⟨false, false⟩

/-- ToByteArray.cpp:39-47, 86-94 and 113-123: construct, serialise, read back. -/
def bytesCase [Cfg] (a : Res BigInt) (bytes : List Nat) : Bool :=
  match a with
  | .ok a => a.toBytes false false = .ok bytes && ofBytes bytes false false = .ok a
  | _ => false

/-- The decimal literals of the tests as objects. -/
def num [Cfg] (s : String) : Res BigInt := BigInt.parse s.toList

/-! ToByteArray.cpp:7-48. -/

example : bytesCase (ofInt32 (0)) [0] = true := by decide +kernel
example : bytesCase (ofInt32 (3)) [3] = true := by decide +kernel
example : bytesCase (ofInt32 (128)) [128, 0] = true := by decide +kernel
example : bytesCase (ofInt32 (200)) [200, 0] = true := by decide +kernel
example : bytesCase (ofInt32 (256)) [0, 1] = true := by decide +kernel
example : bytesCase (ofInt32 (2005)) [213, 7] = true := by decide +kernel
example : bytesCase (ofInt32 (10197)) [213, 39] = true := by decide +kernel
example : bytesCase (ofInt32 (33023)) [255, 128, 0] = true := by decide +kernel
example : bytesCase (ofInt32 (2368349)) [93, 35, 36] = true := by decide +kernel
example : bytesCase (ofInt32 (10756957)) [93, 35, 164, 0] = true := by decide +kernel
example : bytesCase (ofInt32 (193100307)) [19, 122, 130, 11] = true := by decide +kernel
example : bytesCase (ofInt32 (1266842131)) [19, 122, 130, 75] = true := by decide +kernel
example : bytesCase (ofInt32 (2147483647)) [255, 255, 255, 127] = true := by decide +kernel
example : bytesCase (ofInt32 (-1)) [255] = true := by decide +kernel
example : bytesCase (ofInt32 (-128)) [128] = true := by decide +kernel
example : bytesCase (ofInt32 (-172)) [84, 255] = true := by decide +kernel
example : bytesCase (ofInt32 (-23439)) [113, 164] = true := by decide +kernel
example : bytesCase (ofInt32 (-51301)) [155, 55, 255] = true := by decide +kernel
example : bytesCase (ofInt32 (-126341)) [123, 18, 254] = true := by decide +kernel
example : bytesCase (ofInt32 (-13194515)) [237, 170, 54, 255] = true := by decide +kernel
example : bytesCase (ofInt32 (-2068145902)) [18, 153, 186, 132] = true := by decide +kernel
example : bytesCase (ofInt32 ((-2147483648))) [0, 0, 0, 128] = true := by decide +kernel

/-! ToByteArray.cpp:50-95. -/

example : bytesCase (ofInt64 ((0x100112233))) [51, 34, 17, 0, 1] = true := by decide +kernel
example : bytesCase (ofInt64 ((0x300112233))) [51, 34, 17, 0, 3] = true := by decide +kernel
example : bytesCase (ofInt64 ((0x8000112233))) [51, 34, 17, 0, 128, 0] = true := by decide +kernel
example : bytesCase (ofInt64 ((0x3cd00112233))) [51, 34, 17, 0, 205, 3] = true := by decide +kernel
example : bytesCase (ofInt64 ((0xf92100112233))) [51, 34, 17, 0, 33, 249, 0] = true := by decide +kernel
example : bytesCase (ofInt64 ((0x749aa00112233))) [51, 34, 17, 0, 170, 73, 7] = true := by decide +kernel
example : bytesCase (ofInt64 ((0x80112200112233))) [51, 34, 17, 0, 34, 17, 128, 0] = true := by decide +kernel
example : bytesCase (ofInt64 ((0x7654321000112233))) [51, 34, 17, 0, 16, 50, 84, 118] = true := by decide +kernel
example : bytesCase (ofInt64 (9223372036854775807)) [255, 255, 255, 255, 255, 255, 255, 127] = true := by decide +kernel
example : bytesCase (ofInt64 ((-0x100112233))) [205, 221, 238, 255, 254] = true := by decide +kernel
example : bytesCase (ofInt64 ((-0x8000112233))) [205, 221, 238, 255, 127, 255] = true := by decide +kernel
example : bytesCase (ofInt64 ((-0x3cd00112233))) [205, 221, 238, 255, 50, 252] = true := by decide +kernel
example : bytesCase (ofInt64 ((-0xf92100112233))) [205, 221, 238, 255, 222, 6, 255] = true := by decide +kernel
example : bytesCase (ofInt64 ((-0x749aa00112233))) [205, 221, 238, 255, 85, 182, 248] = true := by decide +kernel
example : bytesCase (ofInt64 ((-0x80112200112233))) [205, 221, 238, 255, 221, 238, 127, 255] = true := by decide +kernel
example : bytesCase (ofInt64 ((-0x7654321000112233))) [205, 221, 238, 255, 239, 205, 171, 137] = true := by decide +kernel
example : bytesCase (ofInt64 ((-0x100000000))) [0, 0, 0, 0, 255] = true := by decide +kernel
example : bytesCase (ofInt64 ((-0x300000000))) [0, 0, 0, 0, 253] = true := by decide +kernel
example : bytesCase (ofInt64 ((-0x8000000000))) [0, 0, 0, 0, 128] = true := by decide +kernel
example : bytesCase (ofInt64 ((-0xfe00000000))) [0, 0, 0, 0, 2, 255] = true := by decide +kernel
example : bytesCase (ofInt64 ((-0xff00000000))) [0, 0, 0, 0, 1, 255] = true := by decide +kernel
example : bytesCase (ofInt64 ((-0xfeff00000000))) [0, 0, 0, 0, 1, 1, 255] = true := by decide +kernel
example : bytesCase (ofInt64 ((-0xffff00000000))) [0, 0, 0, 0, 1, 0, 255] = true := by decide +kernel
example : bytesCase (ofInt64 ((-0xfeffff00000000))) [0, 0, 0, 0, 1, 0, 1, 255] = true := by decide +kernel
example : bytesCase (ofInt64 ((-0xffffff00000000))) [0, 0, 0, 0, 1, 0, 0, 255] = true := by decide +kernel

/-! ToByteArray.cpp:97-124; the arrays of the test are written most significant byte first. -/

example : bytesCase (num "0") [0] = true := by decide +kernel
example : bytesCase (num "127") [127] = true := by decide +kernel
example : bytesCase (num "128") [128, 0] = true := by decide +kernel
example : bytesCase (num "33022") [254, 128, 0] = true := by decide +kernel
example : bytesCase (num "-32514") [254, 128] = true := by decide +kernel
example : bytesCase (num "-18374686475376656384") [0, 0, 0, 0, 1, 0, 0, 1, 255] = true := by decide +kernel
example : bytesCase (num "-18446744069414584320") [0, 0, 0, 0, 1, 0, 0, 0, 255] = true := by decide +kernel

/-! bigint_test_sa.cpp:6-308. -/

example : decide ((do (← ofInt32 (1)).add (← ofInt32 (2))) = (ofInt32 (3))) = true := by decide +kernel
example : decide ((do (← ofInt32 (2)).sub (← ofInt32 (1))) = (ofInt32 (1))) = true := by decide +kernel
example : decide ((do (← ofInt32 (1000)).mul (← ofInt32 (600))) = (ofInt32 (600000))) = true := by decide +kernel
example : decide ((do (← ofInt64 (9899809879)).mul (← ofInt64 (9878980980))) = (num "97800033500257101420")) = true := by decide +kernel
example : decide ((do (← ofInt64 (-9899809879)).mul (← ofInt64 (-9878980980))) = (num "97800033500257101420")) = true := by decide +kernel
example : decide ((do (← ofInt64 (9899809879)).mul (← ofInt64 (-9878980980))) = (num "-97800033500257101420")) = true := by decide +kernel
example : decide ((do (← ofInt32 (100)).div (← ofInt32 (20))) = (ofInt32 (5))) = true := by decide +kernel
example : decide ((do (← ofInt64 (892374832784)).div (← ofInt64 (3294723897))) = (ofInt32 (270))) = true := by decide +kernel
example : decide ((do (← ofInt64 (-892374832784)).div (← ofInt64 (-3294723897))) = (ofInt32 (270))) = true := by decide +kernel
example : decide ((do (← ofInt64 (-892374832784)).div (← ofInt64 (3294723897))) = (ofInt32 (-270))) = true := by decide +kernel
example : decide ((do (← ofInt32 (10)).rem (← ofInt32 (7))) = (ofInt32 (3))) = true := by decide +kernel
example : decide ((do (← ofInt64 (2834789327894723894)).rem (← ofInt32 (7123))) = (ofInt32 (64))) = true := by decide +kernel
example : decide ((do (← ofInt32 (7123)).rem (← ofInt64 (2834789327894723894))) = (ofInt32 (7123))) = true := by decide +kernel
example : decide ((do (← ofInt64 (-2834789327894723894)).rem (← ofInt32 (7123))) = (ofInt32 (-64))) = true := by decide +kernel
example : decide ((do (← ofInt64 (-2834789327894723894)).rem (← ofInt64 (-2834789327894723894))) = (ofInt32 (0))) = true := by decide +kernel
example : decide ((do (← ofInt64 (-2834789327894723894)).rem (← ofInt64 (2834789327894723894))) = (ofInt32 (0))) = true := by decide +kernel

/-! test_python_bindings.py:7-464. -/

example : decide ((do toPyInt (← toBigInteger ⟨0, true, by decide⟩)) = .ok (0)) = true := by decide +kernel
example : decide ((do toPyInt (← toBigInteger ⟨4294967295, false, by decide⟩)) = .ok (4294967295)) = true := by decide +kernel
example : decide ((do toPyInt (← toBigInteger ⟨-2147483648, false, by decide⟩)) = .ok (-2147483648)) = true := by decide +kernel
example : decide ((do toPyInt (← toBigInteger ⟨4294967296, false, by decide⟩)) = .ok (4294967296)) = true := by decide +kernel
example : decide ((do toPyInt (← toBigInteger ⟨18446744073709551615, false, by decide⟩)) = .ok (18446744073709551615)) = true := by decide +kernel
example : decide ((do toPyInt (← ofBuffer (bytesBuffer [200, 1]))) = .ok (456)) = true := by decide +kernel
example : decide ((do toPyInt (← ofBuffer (bytesBuffer [56, 254]))) = .ok (-456)) = true := by decide +kernel
example : decide ((do pyToArray (← toBigInteger ⟨456, false, by decide⟩) false false) = .ok [200, 1]) = true := by decide +kernel
example : decide ((do pyToArray (← toBigInteger ⟨33022, false, by decide⟩) false false) = .ok [254, 128, 0]) = true := by decide +kernel
example : decide ((do pyToArray (← toBigInteger ⟨33022, false, by decide⟩) false true) = .ok [0, 128, 254]) = true := by decide +kernel
example : decide ((do pyToArray (← toBigInteger ⟨33022, false, by decide⟩) true false) = .ok [254, 128]) = true := by decide +kernel
example : decide ((do pyToArray (← toBigInteger ⟨33022, false, by decide⟩) true true) = .ok [128, 254]) = true := by decide +kernel
example : decide ((do pyToArray (← toBigInteger ⟨120, false, by decide⟩) false false) = .ok [120]) = true := by decide +kernel
example : decide ((do pyToArray (← toBigInteger ⟨128, false, by decide⟩) false false) = .ok [128, 0]) = true := by decide +kernel
example : decide ((do toPyInt (← PyOp.method .add (← toBigInteger ⟨1, false, by decide⟩) (← toBigInteger ⟨12937123987123987123987123987123987123987123129387129387123987123987, false, by decide⟩))) = .ok (12937123987123987123987123987123987123987123129387129387123987123988)) = true := by decide +kernel
example : decide ((do toPyInt (← PyOp.methodInt .add (← toBigInteger ⟨1, false, by decide⟩) ⟨12937123987123987123987123987123987123987123129387129387123987123987, false, by decide⟩)) = .ok (12937123987123987123987123987123987123987123129387129387123987123988)) = true := by decide +kernel
example : decide ((do PyOp.reflected .add (← toBigInteger ⟨12937123987123987123987123987123987123987123129387129387123987123987, false, by decide⟩) ⟨1, false, by decide⟩) = .ok (12937123987123987123987123987123987123987123129387129387123987123988)) = true := by decide +kernel
example : decide ((do toPyInt (← PyOp.method .add (← toBigInteger ⟨12937123987123987123987123987123987123987123129387129387123987123987, false, by decide⟩) (← toBigInteger ⟨1, false, by decide⟩))) = .ok (12937123987123987123987123987123987123987123129387129387123987123988)) = true := by decide +kernel
example : decide ((do toPyInt (← PyOp.methodInt .add (← toBigInteger ⟨12937123987123987123987123987123987123987123129387129387123987123987, false, by decide⟩) ⟨1, false, by decide⟩)) = .ok (12937123987123987123987123987123987123987123129387129387123987123988)) = true := by decide +kernel
example : decide ((do PyOp.reflected .add (← toBigInteger ⟨1, false, by decide⟩) ⟨12937123987123987123987123987123987123987123129387129387123987123987, false, by decide⟩) = .ok (12937123987123987123987123987123987123987123129387129387123987123988)) = true := by decide +kernel
example : decide ((do toPyInt (← PyOp.method .sub (← toBigInteger ⟨1, false, by decide⟩) (← toBigInteger ⟨12937123987123987123987123987123987123987123129387129387123987123987, false, by decide⟩))) = .ok (-12937123987123987123987123987123987123987123129387129387123987123986)) = true := by decide +kernel
example : decide ((do toPyInt (← PyOp.methodInt .sub (← toBigInteger ⟨1, false, by decide⟩) ⟨12937123987123987123987123987123987123987123129387129387123987123987, false, by decide⟩)) = .ok (-12937123987123987123987123987123987123987123129387129387123987123986)) = true := by decide +kernel
example : decide ((do PyOp.reflected .sub (← toBigInteger ⟨12937123987123987123987123987123987123987123129387129387123987123987, false, by decide⟩) ⟨1, false, by decide⟩) = .ok (-12937123987123987123987123987123987123987123129387129387123987123986)) = true := by decide +kernel
example : decide ((do toPyInt (← PyOp.method .sub (← toBigInteger ⟨12937123987123987123987123987123987123987123129387129387123987123987, false, by decide⟩) (← toBigInteger ⟨1, false, by decide⟩))) = .ok (12937123987123987123987123987123987123987123129387129387123987123986)) = true := by decide +kernel
example : decide ((do toPyInt (← PyOp.methodInt .sub (← toBigInteger ⟨12937123987123987123987123987123987123987123129387129387123987123987, false, by decide⟩) ⟨1, false, by decide⟩)) = .ok (12937123987123987123987123987123987123987123129387129387123987123986)) = true := by decide +kernel
example : decide ((do PyOp.reflected .sub (← toBigInteger ⟨1, false, by decide⟩) ⟨12937123987123987123987123987123987123987123129387129387123987123987, false, by decide⟩) = .ok (12937123987123987123987123987123987123987123129387129387123987123986)) = true := by decide +kernel
example : decide ((do toPyInt (← PyOp.method .mul (← toBigInteger ⟨2, false, by decide⟩) (← toBigInteger ⟨12937123987123987123987123987123987123987123129387129387123987123987, false, by decide⟩))) = .ok (25874247974247974247974247974247974247974246258774258774247974247974)) = true := by decide +kernel
example : decide ((do toPyInt (← PyOp.methodInt .mul (← toBigInteger ⟨2, false, by decide⟩) ⟨12937123987123987123987123987123987123987123129387129387123987123987, false, by decide⟩)) = .ok (25874247974247974247974247974247974247974246258774258774247974247974)) = true := by decide +kernel
example : decide ((do PyOp.reflected .mul (← toBigInteger ⟨12937123987123987123987123987123987123987123129387129387123987123987, false, by decide⟩) ⟨2, false, by decide⟩) = .ok (25874247974247974247974247974247974247974246258774258774247974247974)) = true := by decide +kernel
example : decide ((do toPyInt (← PyOp.method .mul (← toBigInteger ⟨12937123987123987123987123987123987123987123129387129387123987123987, false, by decide⟩) (← toBigInteger ⟨2, false, by decide⟩))) = .ok (25874247974247974247974247974247974247974246258774258774247974247974)) = true := by decide +kernel
example : decide ((do toPyInt (← PyOp.methodInt .mul (← toBigInteger ⟨12937123987123987123987123987123987123987123129387129387123987123987, false, by decide⟩) ⟨2, false, by decide⟩)) = .ok (25874247974247974247974247974247974247974246258774258774247974247974)) = true := by decide +kernel
example : decide ((do PyOp.reflected .mul (← toBigInteger ⟨2, false, by decide⟩) ⟨12937123987123987123987123987123987123987123129387129387123987123987, false, by decide⟩) = .ok (25874247974247974247974247974247974247974246258774258774247974247974)) = true := by decide +kernel
example : decide ((do toPyInt (← PyOp.method .mod (← toBigInteger ⟨860593, false, by decide⟩) (← toBigInteger ⟨-201, false, by decide⟩))) = .ok (112)) = true := by decide +kernel
example : decide ((do toPyInt (← PyOp.methodInt .mod (← toBigInteger ⟨860593, false, by decide⟩) ⟨-201, false, by decide⟩)) = .ok (112)) = true := by decide +kernel
example : decide ((do PyOp.reflected .mod (← toBigInteger ⟨-201, false, by decide⟩) ⟨860593, false, by decide⟩) = .ok (112)) = true := by decide +kernel
example : decide ((do toPyInt (← PyOp.method .mod (← toBigInteger ⟨20195283520469175757, false, by decide⟩) (← toBigInteger ⟨1048576, false, by decide⟩))) = .ok (888269)) = true := by decide +kernel
example : decide ((do toPyInt (← PyOp.methodInt .mod (← toBigInteger ⟨20195283520469175757, false, by decide⟩) ⟨1048576, false, by decide⟩)) = .ok (888269)) = true := by decide +kernel
example : decide ((do PyOp.reflected .mod (← toBigInteger ⟨1048576, false, by decide⟩) ⟨20195283520469175757, false, by decide⟩) = .ok (888269)) = true := by decide +kernel
example : decide ((do toPyInt (← PyOp.method .mod (← toBigInteger ⟨-18224909727634776050312394179610579601844989529623334093909233530432892596607, false, by decide⟩) (← toBigInteger ⟨14954691977398614017, false, by decide⟩))) = .ok (-3100049211437790421)) = true := by decide +kernel
example : decide ((do toPyInt (← PyOp.methodInt .mod (← toBigInteger ⟨-18224909727634776050312394179610579601844989529623334093909233530432892596607, false, by decide⟩) ⟨14954691977398614017, false, by decide⟩)) = .ok (-3100049211437790421)) = true := by decide +kernel
example : decide ((do PyOp.reflected .mod (← toBigInteger ⟨14954691977398614017, false, by decide⟩) ⟨-18224909727634776050312394179610579601844989529623334093909233530432892596607, false, by decide⟩) = .ok (-3100049211437790421)) = true := by decide +kernel
example : decide ((do toPyInt (← PyOp.method .truediv (← toBigInteger ⟨5, false, by decide⟩) (← toBigInteger ⟨2, false, by decide⟩))) = .ok (2)) = true := by decide +kernel
example : decide ((do toPyInt (← PyOp.methodInt .truediv (← toBigInteger ⟨5, false, by decide⟩) ⟨2, false, by decide⟩)) = .ok (2)) = true := by decide +kernel
example : decide ((do PyOp.reflected .truediv (← toBigInteger ⟨2, false, by decide⟩) ⟨5, false, by decide⟩) = .ok (2)) = true := by decide +kernel
example : decide ((do toPyInt (← PyOp.method .floordiv (← toBigInteger ⟨5, false, by decide⟩) (← toBigInteger ⟨2, false, by decide⟩))) = .ok (2)) = true := by decide +kernel
example : decide ((do toPyInt (← PyOp.methodInt .floordiv (← toBigInteger ⟨5, false, by decide⟩) ⟨2, false, by decide⟩)) = .ok (2)) = true := by decide +kernel
example : decide ((do PyOp.reflected .floordiv (← toBigInteger ⟨2, false, by decide⟩) ⟨5, false, by decide⟩) = .ok (2)) = true := by decide +kernel
example : decide ((do toPyInt (← PyOp.method .and (← toBigInteger ⟨13, false, by decide⟩) (← toBigInteger ⟨5, false, by decide⟩))) = .ok (5)) = true := by decide +kernel
example : decide ((do toPyInt (← PyOp.methodInt .and (← toBigInteger ⟨13, false, by decide⟩) ⟨5, false, by decide⟩)) = .ok (5)) = true := by decide +kernel
example : decide ((do PyOp.reflected .and (← toBigInteger ⟨5, false, by decide⟩) ⟨13, false, by decide⟩) = .ok (5)) = true := by decide +kernel
example : decide ((do toPyInt (← PyOp.method .or (← toBigInteger ⟨9, false, by decide⟩) (← toBigInteger ⟨2, false, by decide⟩))) = .ok (11)) = true := by decide +kernel
example : decide ((do toPyInt (← PyOp.methodInt .or (← toBigInteger ⟨9, false, by decide⟩) ⟨2, false, by decide⟩)) = .ok (11)) = true := by decide +kernel
example : decide ((do PyOp.reflected .or (← toBigInteger ⟨2, false, by decide⟩) ⟨9, false, by decide⟩) = .ok (11)) = true := by decide +kernel
example : decide ((do toPyInt (← PyOp.method .xor (← toBigInteger ⟨9, false, by decide⟩) (← toBigInteger ⟨8, false, by decide⟩))) = .ok (1)) = true := by decide +kernel
example : decide ((do toPyInt (← PyOp.methodInt .xor (← toBigInteger ⟨9, false, by decide⟩) ⟨8, false, by decide⟩)) = .ok (1)) = true := by decide +kernel
example : decide ((do PyOp.reflected .xor (← toBigInteger ⟨8, false, by decide⟩) ⟨9, false, by decide⟩) = .ok (1)) = true := by decide +kernel
example : decide ((do toPyInt (← PyUn.method .neg (← toBigInteger ⟨9, false, by decide⟩))) = .ok (-9)) = true := by decide +kernel
example : decide ((do toPyInt (← PyUn.method .neg (← toBigInteger ⟨-9, false, by decide⟩))) = .ok (9)) = true := by decide +kernel
example : decide ((do toPyInt (← PyUn.method .pos (← toBigInteger ⟨-9, false, by decide⟩))) = .ok (-9)) = true := by decide +kernel
example : decide ((do toPyInt (← PyUn.method .abs (← toBigInteger ⟨-9, false, by decide⟩))) = .ok (9)) = true := by decide +kernel
example : decide ((do toPyInt (← PyUn.method .invert (← toBigInteger ⟨9, false, by decide⟩))) = .ok (-10)) = true := by decide +kernel
example : decide ((do let b := (← toBigInteger ⟨5, false, by decide⟩); let s := (← toBigInteger ⟨2, false, by decide⟩); match pyShl (.big b) (.big s) with | some x => (do match ← x with | .inl y => toPyInt y | .inr _ => .abort) | none => .abort) = .ok 20) = true := by decide +kernel
example : decide ((do let b := (← toBigInteger ⟨5, false, by decide⟩); match pyShl (.big b) (.int ⟨2, false, by decide⟩) with | some x => (do match ← x with | .inl y => toPyInt y | .inr _ => .abort) | none => .abort) = .ok 20) = true := by decide +kernel
example : decide ((do let s := (← toBigInteger ⟨2, false, by decide⟩); match pyShl (.int ⟨5, false, by decide⟩) (.big s) with | some x => (do match ← x with | .inl _ => .abort | .inr y => .ok y) | none => .abort) = .ok 20) = true := by decide +kernel
example : decide ((do let b := (← toBigInteger ⟨8, false, by decide⟩); let s := (← toBigInteger ⟨-1, false, by decide⟩); match pyShl (.big b) (.big s) with | some x => (do match ← x with | .inl y => toPyInt y | .inr _ => .abort) | none => .abort) = .ok 4) = true := by decide +kernel
example : decide ((do let b := (← toBigInteger ⟨8, false, by decide⟩); match pyShl (.big b) (.int ⟨-1, false, by decide⟩) with | some x => (do match ← x with | .inl y => toPyInt y | .inr _ => .abort) | none => .abort) = .ok 4) = true := by decide +kernel
example : decide ((do let s := (← toBigInteger ⟨-1, false, by decide⟩); match pyShl (.int ⟨8, false, by decide⟩) (.big s) with | some x => (do match ← x with | .inl _ => .abort | .inr y => .ok y) | none => .abort) = .ok 4) = true := by decide +kernel
example : decide ((do let b := (← toBigInteger ⟨12, false, by decide⟩); let s := (← toBigInteger ⟨2, false, by decide⟩); match pyShr (.big b) (.big s) with | some x => (do match ← x with | .inl y => toPyInt y | .inr _ => .abort) | none => .abort) = .ok 3) = true := by decide +kernel
example : decide ((do let b := (← toBigInteger ⟨12, false, by decide⟩); match pyShr (.big b) (.int ⟨2, false, by decide⟩) with | some x => (do match ← x with | .inl y => toPyInt y | .inr _ => .abort) | none => .abort) = .ok 3) = true := by decide +kernel
example : decide ((do let s := (← toBigInteger ⟨2, false, by decide⟩); match pyShr (.int ⟨12, false, by decide⟩) (.big s) with | some x => (do match ← x with | .inl _ => .abort | .inr y => .ok y) | none => .abort) = .ok 3) = true := by decide +kernel
example : decide ((do let b := (← toBigInteger ⟨3, false, by decide⟩); let s := (← toBigInteger ⟨-1, false, by decide⟩); match pyShr (.big b) (.big s) with | some x => (do match ← x with | .inl y => toPyInt y | .inr _ => .abort) | none => .abort) = .ok 6) = true := by decide +kernel
example : decide ((do let b := (← toBigInteger ⟨3, false, by decide⟩); match pyShr (.big b) (.int ⟨-1, false, by decide⟩) with | some x => (do match ← x with | .inl y => toPyInt y | .inr _ => .abort) | none => .abort) = .ok 6) = true := by decide +kernel
example : decide ((do let s := (← toBigInteger ⟨-1, false, by decide⟩); match pyShr (.int ⟨3, false, by decide⟩) (.big s) with | some x => (do match ← x with | .inl _ => .abort | .inr y => .ok y) | none => .abort) = .ok 6) = true := by decide +kernel
example : decide ((do let b := (← toBigInteger ⟨5, false, by decide⟩); let s := (← toBigInteger ⟨4, false, by decide⟩); match pyPow (.big b) (.big s) with | some x => (do match ← x with | .inl y => toPyInt y | .inr _ => .abort) | none => .abort) = .ok 625) = true := by decide +kernel
example : decide ((do let b := (← toBigInteger ⟨5, false, by decide⟩); match pyPow (.big b) (.int ⟨4, false, by decide⟩) with | some x => (do match ← x with | .inl y => toPyInt y | .inr _ => .abort) | none => .abort) = .ok 625) = true := by decide +kernel
example : decide ((do let s := (← toBigInteger ⟨4, false, by decide⟩); match pyPow (.int ⟨5, false, by decide⟩) (.big s) with | some x => (do match ← x with | .inl _ => .abort | .inr y => .ok y) | none => .abort) = .ok 625) = true := by decide +kernel
example : decide ((do let b := (← toBigInteger ⟨5, false, by decide⟩); let e := (← toBigInteger ⟨4, false, by decide⟩); let m := (← toBigInteger ⟨3, false, by decide⟩); match pyPowMod (.big b) (.big e) (.big m) with | some x => (do toPyInt (← x)) | none => .abort) = .ok 1) = true := by decide +kernel
example : decide ((do let a := (← toBigInteger ⟨9, false, by decide⟩); let b := (← toBigInteger ⟨4, false, by decide⟩); let (q, r) ← a.divRem b; .ok (← toPyInt q, ← toPyInt r)) = Res.ok (2, 1)) = true := by decide +kernel
example : decide ((do let b := (← toBigInteger ⟨4, false, by decide⟩); match pyDivmod (.int ⟨9, false, by decide⟩) (.big b) with | some x => (do match ← x with | .inl _ => .abort | .inr y => .ok y) | none => .abort) = Res.ok (2, 1)) = true := by decide +kernel
example : (match (do .ok (pyHash (← toBigInteger ⟨5, false, by decide⟩), pyHash (← toBigInteger ⟨4, false, by decide⟩)) : Res _) with | .ok (x, y) => decide (x ≠ y) | _ => false) = true := by decide +kernel

end BigIntegerCpp.Vectors
