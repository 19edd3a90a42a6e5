/-!
# Error codes — model

Transcription of `/repo/src/platform/np_error_code.h` and `np_error_code.c`, of `/repo/src/api/nabto_device_error.h` and `nabto_device_error.c`, and
of the codes with which the futures of push notifications, service invocations and requests for ICE servers are resolved.

Simplifications:
* A code is an integer, `NabtoDeviceError` is an `int` and `np_error_code` an enumeration.
* The CoAP library is not in the repository. A request ends stopped, with a timeout, with another error or with a response.
-/

namespace Verif.Api.ErrorCode

/-- The names of `np_error_code`, np_error_code.h:9-54. -/
inductive Core
  | ok
  | unknown
  | notSupported
  | udpSocketCreationError
  | udpSocketError
  | invalidSocket
  | eof
  | failedToSendPacket
  | malformedPacket
  | outOfChannels
  | outOfConnections
  | invalidChannel
  | invalidConnectionId
  | insufficientBufferAllocation
  | alpnFailed
  | invalidPeerFingerprint
  | connectionClosing
  | keepAliveTimeout
  | sendInProgress
  | futureNotResolved
  | noValidEndpoints
  | operationInProgress
  | aborted
  | stopped
  | closed
  | resourceExists
  | notFound
  | outOfMemory
  | notImplemented
  | accessDenied
  | stringTooLong
  | notAString
  | notANumber
  | invalidConnection
  | invalidArgument
  | inUse
  | invalidState
  | noData
  | operationStarted
  | noOperation
  | again
  | addressInUse
  | notAttached
  | timeout
  | badResponse
  | failed
  deriving DecidableEq, Repr

namespace Core

/-- The order of the enumeration, np_error_code.h:9-54. -/
def all : List Core := [
  .ok, .unknown, .notSupported, .udpSocketCreationError, .udpSocketError, .invalidSocket, .eof, .failedToSendPacket, .malformedPacket,
  .outOfChannels, .outOfConnections, .invalidChannel, .invalidConnectionId, .insufficientBufferAllocation, .alpnFailed, .invalidPeerFingerprint,
  .connectionClosing, .keepAliveTimeout, .sendInProgress, .futureNotResolved, .noValidEndpoints, .operationInProgress, .aborted, .stopped,
  .closed, .resourceExists, .notFound, .outOfMemory, .notImplemented, .accessDenied, .stringTooLong, .notAString, .notANumber,
  .invalidConnection, .invalidArgument, .inUse, .invalidState, .noData, .operationStarted, .noOperation, .again, .addressInUse, .notAttached,
  .timeout, .badResponse, .failed]

/-- The value: the place in the enumeration, np_error_code.h:58-62. -/
def num (c : Core) : Int := all.idxOf c

/-- The name as it is written in the list. -/
def name : Core → String
  | .ok => "OK"
  | .unknown => "UNKNOWN"
  | .notSupported => "NOT_SUPPORTED"
  | .udpSocketCreationError => "UDP_SOCKET_CREATION_ERROR"
  | .udpSocketError => "UDP_SOCKET_ERROR"
  | .invalidSocket => "INVALID_SOCKET"
  | .eof => "EOF"
  | .failedToSendPacket => "FAILED_TO_SEND_PACKET"
  | .malformedPacket => "MALFORMED_PACKET"
  | .outOfChannels => "OUT_OF_CHANNELS"
  | .outOfConnections => "OUT_OF_CONNECTIONS"
  | .invalidChannel => "INVALID_CHANNEL"
  | .invalidConnectionId => "INVALID_CONNECTION_ID"
  | .insufficientBufferAllocation => "INSUFFICIENT_BUFFER_ALLOCATION"
  | .alpnFailed => "ALPN_FAILED"
  | .invalidPeerFingerprint => "INVALID_PEER_FINGERPRINT"
  | .connectionClosing => "CONNECTION_CLOSING"
  | .keepAliveTimeout => "KEEP_ALIVE_TIMEOUT"
  | .sendInProgress => "SEND_IN_PROGRESS"
  | .futureNotResolved => "FUTURE_NOT_RESOLVED"
  | .noValidEndpoints => "NO_VALID_ENDPOINTS"
  | .operationInProgress => "OPERATION_IN_PROGRESS"
  | .aborted => "ABORTED"
  | .stopped => "STOPPED"
  | .closed => "CLOSED"
  | .resourceExists => "RESOURCE_EXISTS"
  | .notFound => "NOT_FOUND"
  | .outOfMemory => "OUT_OF_MEMORY"
  | .notImplemented => "NOT_IMPLEMENTED"
  | .accessDenied => "ACCESS_DENIED"
  | .stringTooLong => "STRING_TOO_LONG"
  | .notAString => "NOT_A_STRING"
  | .notANumber => "NOT_A_NUMBER"
  | .invalidConnection => "INVALID_CONNECTION"
  | .invalidArgument => "INVALID_ARGUMENT"
  | .inUse => "IN_USE"
  | .invalidState => "INVALID_STATE"
  | .noData => "NO_DATA"
  | .operationStarted => "OPERATION_STARTED"
  | .noOperation => "NO_OPERATION"
  | .again => "AGAIN"
  | .addressInUse => "ADDRESS_IN_USE"
  | .notAttached => "NOT_ATTACHED"
  | .timeout => "TIMEOUT"
  | .badResponse => "BAD_RESPONSE"
  | .failed => "FAILED"

/-- The message beside the name. -/
def text : Core → String
  | .ok => "Ok"
  | .unknown => "Unknown"
  | .notSupported => "Not supported"
  | .udpSocketCreationError => "Udp socket creation error"
  | .udpSocketError => "Udp socket error"
  | .invalidSocket => "Invalid socket"
  | .eof => "End of file"
  | .failedToSendPacket => "Failed to send packet"
  | .malformedPacket => "Malformed packet"
  | .outOfChannels => "Out of channels"
  | .outOfConnections => "Out of connections"
  | .invalidChannel => "Invalid channel"
  | .invalidConnectionId => "Invalid connection id"
  | .insufficientBufferAllocation => "Insufficient buffer allocation"
  | .alpnFailed => "Alpn failed"
  | .invalidPeerFingerprint => "Invalid peer fingerprint"
  | .connectionClosing => "Connection closing"
  | .keepAliveTimeout => "Keep alive timeout"
  | .sendInProgress => "Send in progress"
  | .futureNotResolved => "Future is not resolved yet"
  | .noValidEndpoints => "No valid endpoints"
  | .operationInProgress => "Operation in progress"
  | .aborted => "Aborted"
  | .stopped => "Stopped"
  | .closed => "Stream closed"
  | .resourceExists => "Resource exists"
  | .notFound => "Not Found"
  | .outOfMemory => "Out of memory"
  | .notImplemented => "Not Implemented"
  | .accessDenied => "Access denied"
  | .stringTooLong => "String too long"
  | .notAString => "Not a string"
  | .notANumber => "Not a number"
  | .invalidConnection => "Invalid connection"
  | .invalidArgument => "Invalid argument"
  | .inUse => "In use"
  | .invalidState => "Invalid State"
  | .noData => "No data"
  | .operationStarted => "Operation started"
  | .noOperation => "No operation neccessary"
  | .again => "No data available try again later"
  | .addressInUse => "Address (port number) already in use"
  | .notAttached => "Not attached"
  | .timeout => "Timeout"
  | .badResponse => "Bad response"
  | .failed => "Operation failed, look at the log for more information."

end Core

/-- What is said about a number which is no code. -/
def unknownText : String := "Unknown error code, this should not happen"

/-- The name with this value in a list of names: a `switch` or a chain of `if`. -/
def find (l : List Core) (n : Int) : Option Core := l.find? fun c => c.num == n

/-- `np_error_code_to_string`, np_error_code.c:3-13. -/
def coreToString (n : Int) : String :=
  match find Core.all n with
  | some c => c.text
  | none => unknownText

/-- `NABTO_DEVICE_ERROR_CODE_MAPPING`, nabto_device_error.h:9-27. -/
def mapping : List Core := [
  .ok, .unknown, .notImplemented, .outOfMemory, .stringTooLong, .operationInProgress, .futureNotResolved, .aborted, .stopped, .eof,
  .invalidState, .invalidArgument, .invalidConnection, .noData, .inUse, .addressInUse, .notAttached, .failed]

/-- `nabto_device_error_get_message`, nabto_device_error.c:10-19. -/
def getMessage (n : Int) : String :=
  match find mapping n with
  | some c => coreToString c.num
  | none => unknownText

/-- `nabto_device_error_get_string`, nabto_device_error.c:21-29. -/
def getString (n : Int) : String :=
  match find mapping n with
  | some c => "NABTO_DEVICE_" ++ c.name
  | none => unknownText

/-- `nabto_device_error_core_to_api`, nabto_device_error.c:31-39. -/
def coreToApi (n : Int) : Int :=
  match find mapping n with
  | some c => c.num
  | none => Core.unknown.num

/-- The errors of the CoAP library. -/
inductive CoapError
  | ok | outOfMemory | noConnection | invalidParameter | other
  deriving DecidableEq, Repr

/-- `nc_coap_error_to_core`, nc_coap.c:4-12. -/
def coapToCore : CoapError → Core
  | .ok => .ok
  | .outOfMemory => .outOfMemory
  | .noConnection => .aborted
  | .invalidParameter => .invalidArgument
  | .other => .unknown

/-- `nabto_device_coap_error_response`, nabto_device_coap.c:95-104: the code is returned as it is. -/
def coapErrorResponse (e : CoapError) : Int := (coapToCore e).num

/-- A response of the basestation: its code, whether it is CBOR, whether it has a payload and whether the payload can be parsed. -/
structure Response where
  code : Nat
  cbor : Bool
  payload : Bool
  parses : Bool
  deriving DecidableEq, Repr

/-- How a request to the basestation ends. -/
inductive Ending
  | stopped
  | timeout
  | error
  | response (r : Response)
  deriving DecidableEq, Repr

/-- `coap_handler` of nc_attacher_service_invoke.c:70-119 and of nc_attacher_ice_servers.c:106-163. -/
def invokeResult : Ending → Core
  | .stopped => .stopped
  | .timeout => .timeout
  | .error => .unknown
  | .response r =>
    if r.code ≠ 201 then .failed
    else if !r.cbor then .badResponse
    else if !r.payload then .badResponse
    else if r.parses then .ok else .badResponse

/-- `coap_handler` of nc_attacher_fcm.c:71-109. -/
def fcmResult : Ending → Core
  | .stopped => .stopped
  | .timeout => .timeout
  | .error => .unknown
  | .response r =>
    if r.code = 201 ∧ r.cbor ∧ r.payload then
      if r.parses then .ok else .badResponse
    else .badResponse

/-- How a request is started: whether the device is attached, the size of the payload can be determined, there is memory, the payload can be encoded,
and what the library says to the payload. -/
structure Start where
  attached : Bool
  sized : Bool
  memory : Bool
  encoded : Bool
  set : CoapError
  deriving DecidableEq, Repr

/-- `nc_attacher_fcm_send`, nc_attacher_fcm.c:21-69; `nc_attacher_service_invoke_execute` and `nc_attacher_request_ice_servers` make the same
decisions (nc_attacher_service_invoke.c:21-68, nc_attacher_ice_servers.c:50-94). -/
def startResult (s : Start) : Core :=
  if !s.attached then .notAttached
  else if !s.sized then .failed
  else if !s.memory then .outOfMemory
  else if !s.encoded then .failed
  else coapToCore s.set

/-- The requests to the basestation. -/
inductive Kind
  | fcm | service | iceServers
  deriving DecidableEq, Repr

/-- `coap_handler` of the request. -/
def result : Kind → Ending → Core
  | .fcm => fcmResult
  | _ => invokeResult

/-- What the future of the application gets: `nabto_device_fcm_send` (nabto_device_fcm.c:89-115), `nabto_device_service_invocation_execute`
(nabto_device_service_invocation.c:98-124), `nabto_device_ice_servers_request_send` (nabto_device_ice_servers.c:42-71). The code of the core is passed on
as it is. -/
def request (k : Kind) (s : Start) (e : Ending) : Int :=
  if startResult s = .ok then (result k e).num else (startResult s).num

end Verif.Api.ErrorCode
