import Verif.Basic
import Verif.Spec
import Verif.Model.AddSub
import Verif.Model.SquMul
import Verif.Model.DivRem
import Verif.Model.Core
import Verif.Model.Bits
import Verif.Model.Bytes
import Verif.Model.Text
import Verif.Model.Convert
import Verif.Model.Pow
import Verif.Model.Gcd
import Verif.Lemmas.Basic
import Verif.Lemmas.AddSub
import Verif.Lemmas.Core
import Verif.Lemmas.Arith
import Verif.Lemmas.SquMul
import Verif.Lemmas.DivRem
import Verif.Lemmas.MulDiv
import Verif.Props.Samples
import Verif.Props.Basic
import Verif.Props.Arith
import Verif.Lemmas.Bits
import Verif.Lemmas.Twos
import Verif.Lemmas.Bitwise
import Verif.Lemmas.BitLength
import Verif.Lemmas.Shift
import Verif.Props.Bits
import Verif.Lemmas.Convert
import Verif.Lemmas.Double
import Verif.Props.Convert
import Verif.Lemmas.Text
import Verif.Props.Text
import Verif.Lemmas.Bytes
import Verif.Lemmas.ToBytes
import Verif.Props.Bytes
import Verif.Lemmas.Pow
import Verif.Lemmas.ModPow
import Verif.Lemmas.FastReducer
import Verif.Lemmas.PowProps
import Verif.Props.Pow
import Verif.Lemmas.Gcd
import Verif.Lemmas.GcdStuck
import Verif.Lemmas.GcdWrong
import Verif.Props.Gcd
import Verif.Model.Program
import Verif.ProgramSpec
import Verif.Lemmas.Program
import Verif.Lemmas.Fault
import Verif.Props.Program
import Verif.Model.Python
import Verif.PythonSpec
import Verif.Lemmas.Python
import Verif.Props.Python
import Verif.Model.Log
import Verif.LogSpec
import Verif.Lemmas.Log
import Verif.Props.Log
import Verif.ClosureSpec
import Verif.Lemmas.Closure
import Verif.Props.Closure
import Verif.Props.Move
import Verif.GcdSpec
import Verif.Lemmas.GcdPrefix
import Verif.Lemmas.GcdCount
import Verif.FloatSpec
import Verif.Model.Float
import Verif.Lemmas.Float
import Verif.Lemmas.FloatTwice
import Verif.Props.Float
import Verif.Lemmas.Words
import Verif.Props.Words
import Verif.Model.PythonObject
import Verif.PythonObjectSpec
import Verif.Props.PythonObject
import Verif.Model.Accessors
import Verif.Props.Accessors
import Verif.Model.PythonQuery
import Verif.Props.PythonQuery
import Verif.ActualSpec
import Verif.Lemmas.Actual
import Verif.Model.Expr
import Verif.ExprSpec
import Verif.Props.Laws
import Verif.Model.Memory
import Verif.Model.Pointer
import Verif.MemorySpec
import Verif.Lemmas.Memory
import Verif.Lemmas.Pointer
import Verif.Lemmas.PointerMul
import Verif.Lemmas.PointerDiv
import Verif.Lemmas.PointerSpec
import Verif.Props.Pointer
import Verif.EndsSpec
import Verif.Lemmas.Ends
import Verif.Props.Ends
import Verif.Props.Exact
import Verif.Model.Static
import Verif.Lemmas.Static
import Verif.Props.Static
import Verif.Props.Order
import Verif.Props.ModLaws
import Verif.Vectors
import Verif.Model.Cost
import Verif.Lemmas.Cost
import Verif.Lemmas.CostDiv
import Verif.Props.Cost
import Verif.Model.CostText
import Verif.Lemmas.CostText
import Verif.Props.CostText
import Verif.Model.CostPow
import Verif.Lemmas.CostPow
import Verif.Props.CostPow
import Verif.Props.UserPrograms
import Verif.Model.Loops
import Verif.Lemmas.Loops
import Verif.Lemmas.LoopsText
import Verif.Lemmas.LoopsBytes
import Verif.Props.Loops
import Verif.Props.Instances
import Verif.Props.InstancesTwo
import Verif.Model.Exhaustion
import Verif.ExhaustionSpec
import Verif.Lemmas.Exhaustion
import Verif.Props.Exhaustion
import Verif.SizesSpec
import Verif.Lemmas.Sizes
import Verif.Props.Sizes
import Verif.Model.Threads
import Verif.ThreadsSpec
import Verif.Lemmas.Threads
import Verif.Props.Threads
import Verif.Model.Oracle
import Verif.Lemmas.Oracle
import Verif.Lemmas.Oracle2
import Verif.Lemmas.Oracle3
import Verif.Lemmas.Oracle4
import Verif.Lemmas.Oracle5
import Verif.Model.Calculator
import Verif.CalculatorSpec
import Verif.Props.Oracle
import Verif.Lemmas.Calculator
import Verif.Props.Calculator
import Verif.Model.RandomTests
import Verif.RandomTestsSpec
import Verif.Lemmas.RandomTests
import Verif.Props.RandomTests
import Verif.Model.Overloads
import Verif.OverloadsSpec
import Verif.Props.Overloads
import Verif.Props.OverloadValues
import Verif.Model.PythonDispatch
import Verif.PythonDispatchSpec
import Verif.Props.PythonDispatch
import Verif.GcdActualSpec
import Verif.Lemmas.GcdActual
import Verif.Lemmas.GcdRun
import Verif.Props.GcdActual
import Verif.Model.Containers
import Verif.ContainersSpec
import Verif.Lemmas.Containers
import Verif.Props.Containers
import Verif.Model.CostBits
import Verif.Lemmas.CostBits
import Verif.Props.CostBits
import Verif.Model.CostGcd
import Verif.Lemmas.CostGcd
import Verif.Props.CostGcd
import Verif.Model.PointerBuf
import Verif.Lemmas.PointerBuf
import Verif.Lemmas.PointerReduce
import Verif.Lemmas.PointerPow
import Verif.Lemmas.PointerGcd
import Verif.Props.PointerBuf
import Verif.Lemmas.ModPowSafe
import Verif.Lemmas.CostReducer
import Verif.Props.ModPowSafe
import Verif.Props.CostReducer
import Verif.Lemmas.ModPowLow
import Verif.Props.ModPowEven
import Verif.Props.GcdClose
import Verif.Long32Spec
import Verif.Model.Long32
import Verif.Lemmas.Long32
import Verif.Lemmas.Long32Conv
import Verif.Props.Long32
import Verif.Model.Long32Pow
import Verif.Model.Long32Gcd
import Verif.Lemmas.Long32Pow
import Verif.Lemmas.Long32ModPow
import Verif.Lemmas.Long32Gcd
import Verif.Long32ModSpec
import Verif.Props.Long32Pow
import Verif.Props.Long32Gcd
import Verif.Model.Long32Python
import Verif.Long32PythonSpec
import Verif.Lemmas.Long32Python
import Verif.Props.Long32Python
import Verif.Model.StackMachine
import Verif.StackMachineSpec
import Verif.Lemmas.StackMachine
import Verif.Props.StackMachine
import Verif.Model.Chains
import Verif.ChainsSpec
import Verif.Lemmas.Chains
import Verif.Props.Chains
import Verif.Model.Buffers
import Verif.BuffersSpec
import Verif.Lemmas.Buffers
import Verif.Props.Buffers
import Verif.Props.BuffersSelf
import Verif.Props.ExactRest
import Verif.Props.PythonOrder
import Verif.NumericsSpec
import Verif.Lemmas.Numerics
import Verif.Props.Numerics
import Verif.Model.FloatBack
import Verif.Lemmas.FloatBack
import Verif.Props.FloatBack
import Verif.Model.PythonFormula
import Verif.PythonFormulaSpec
import Verif.Lemmas.PythonFormula
import Verif.Props.PythonFormula
import Verif.Model.PythonProgram
import Verif.PythonProgramSpec
import Verif.Props.PythonProgram
import Verif.Props.PythonEuclid
import Verif.Props.PythonPower
import Verif.Props.PythonOutcome
import Verif.Props.PythonSqrt
import Verif.Props.PythonPowerTruth
