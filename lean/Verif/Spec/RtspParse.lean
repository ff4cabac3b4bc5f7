import Verif.Model.RtspParse
/-! What is compared between two runs of the RTSP receiver. -/
namespace Verif.Rtsp.Spec
open Verif.C

/-- What is left of a run of the receiver: return code, messages handed out, cookie counter and parser state. After
an error the bus is dead and the bytes behind the error, of which it may have read more or less, do not count. -/
def outcome (r : Int × Bus) : Int × Bus :=
  if r.1 < 0 then (r.1, { r.2 with dec := { r.2.dec with ring := [] } }) else r

end Verif.Rtsp.Spec
