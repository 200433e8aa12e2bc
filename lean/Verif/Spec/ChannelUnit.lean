import Verif.Model.ChannelUnit
import Verif.Props.MakeDivisible
import Verif.Props.SeqChannel

/-! Definitions used in the statements of `Verif/Props/ChannelUnit.lean`. -/

namespace Verif.ChannelUnit
open Verif SeqChannel MakeDivisible

/-- The effective minimum. -/
def effMin (u : Cfg) : Int := max u.minValue u.divisor

end Verif.ChannelUnit
