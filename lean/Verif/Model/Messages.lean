import Verif.Model.Requester

/-! # The text of the exception for an error of the CA -/

namespace Ndncert

/-- `operator<<` of `ErrorCode` (src/detail/ndncert-common.cpp:27-43) -/
def errorCodeText (code : ErrorCode) : Bytes :=
  match code with
  | 0 => bytes! "NO_ERROR"
  | 1 => bytes! "BAD_INTEREST_FORMAT"
  | 2 => bytes! "BAD_PARAMETER_FORMAT"
  | 3 => bytes! "BAD_SIGNATURE"
  | 4 => bytes! "INVALID_PARAMETER"
  | 5 => bytes! "NAME_NOT_ALLOWED"
  | 6 => bytes! "BAD_VALIDITY_PERIOD"
  | 7 => bytes! "OUT_OF_TRIES"
  | 8 => bytes! "OUT_OF_TIME"
  | 9 => bytes! "NO_AVAILABLE_NAMES"
  | n => bytes! "<Unknown Error " ++ decDigits n ++ bytes! ">"

/-- the text given to the exception (src/requester-request.cpp:282-284) -/
def caErrorText (code : ErrorCode) (info : Bytes) : Bytes :=
  bytes! "Error info replied from the CA with Error code: " ++ errorCodeText code ++ bytes! " and Error Info: " ++ info

/-- `what()` of an exception with this text: a C string, so it ends before the first NUL (src/requester-request.cpp:282) -/
def whatOf (text : Bytes) : Bytes := text.takeWhile (fun c => c != 0)

end Ndncert
