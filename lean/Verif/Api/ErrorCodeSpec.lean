import Verif.Api.ErrorCode

/-! # Error codes: what is meant -/

namespace Verif.Api.ErrorCode.Spec

/-- The codes of the public header, nabto_device.h:122-139. -/
def documented : List Core := [
  .ok, .unknown, .notImplemented, .outOfMemory, .stringTooLong, .operationInProgress, .futureNotResolved, .aborted, .stopped, .eof,
  .invalidState, .invalidArgument, .invalidConnection, .noData, .inUse, .addressInUse, .notAttached, .failed]

/-- A number an application can compare with the codes of the header. -/
def Documented (n : Int) : Prop := ∃ c ∈ documented, n = c.num

/-- `nabto_device_error_get_string` as the header says: "E.g. NABTO_DEVICE_EC_OK is translated to the string "NABTO_DEVICE_EC_OK"",
nabto_device.h:2558-2567. -/
def stringOf (c : Core) : String := "NABTO_DEVICE_EC_" ++ c.name

/-- A response which has what was asked for. -/
def Good (r : Response) : Prop := r.code = 201 ∧ r.cbor = true ∧ r.payload = true ∧ r.parses = true

end Verif.Api.ErrorCode.Spec
