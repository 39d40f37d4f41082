import Verif.ControllerProps

/-!
# Specification: the law of the Controller as a function of the history
-/

namespace Diminuto.Controller

/-- A value multiplied by a gain, the quotient being truncated. -/
def scaled (g : Gain) (v : Int) : Int := (v * g.numerator).tdiv g.denominator

/-- The sample: the input, or the mean of the previous sample and it. -/
def sampleOf (p : Params) : List (Int × Int × Int) → Int
  | [] => 0
  | [(_, i, _)] => i
  | (_, i, _) :: c :: rest => if p.filter then (sampleOf p (c :: rest) + i) / 2 else i

/-- The difference between target and sample. -/
def errorOf (p : Params) : List (Int × Int × Int) → Int
  | [] => 0
  | (t, i, o) :: rest => t - sampleOf p ((t, i, o) :: rest)

/-- The sum of the errors, each multiplied by the integral gain, which never leaves the
range of the windup. -/
def integralOf (p : Params) : List (Int × Int × Int) → Int
  | [] => 0
  | c :: rest =>
    max (-p.windup) (min p.windup (integralOf p rest + scaled p.ki (errorOf p (c :: rest))))

/-- The change of the sample since the call before. -/
def changeOf (p : Params) : List (Int × Int × Int) → Int
  | [] => 0
  | [_] => 0
  | c :: d :: rest => sampleOf p (c :: d :: rest) - sampleOf p (d :: rest)

/-- The correction of the output. -/
def correctionOf (p : Params) (hist : List (Int × Int × Int)) : Int :=
  scaled p.kc (scaled p.kp (errorOf p hist) + integralOf p hist - scaled p.kd (changeOf p hist))

/-- No gain has a zero denominator. -/
def Proper (p : Params) : Prop :=
  p.kp.denominator ≠ 0 ∧ p.ki.denominator ≠ 0 ∧ p.kd.denominator ≠ 0 ∧ p.kc.denominator ≠ 0

end Diminuto.Controller
