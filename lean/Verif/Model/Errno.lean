import Verif.Core.Outcome

/-!
# Model of the translation of `errno` in `ecl_devices`

`detail/exception_handler_pos.cpp` and `detail/socket_exception_handler_pos.cpp` make the exceptions,
`detail/error_handler.cpp` and `detail/socket_error_handler_pos.hpp` the error flags.  The argument is
the value of `errno` (`h_errno` for `gethostbyname`) with the numbers Linux uses; a case label such as
`EAGAIN || EWOULDBLOCK` is the constant 1.  Of an exception only the flag is represented.
-/
set_option autoImplicit false

namespace Ecl.Errno

/-- `open_exception`: `ecl_devices/src/lib/detail/exception_handler_pos.cpp:44-70`. -/
def openException : Nat → Flag
  | 2 => .notFoundError   -- ENOENT
  | 22 => .invalidArgError   -- EINVAL
  | 13 => .permissionsError   -- EACCES
  | 27 | 75 => .outOfResourcesError   -- EFBIG, EOVERFLOW
  | 4 => .interruptedError   -- EINTR
  | 21 => .invalidObjectError   -- EISDIR
  | 40 => .systemFailureError   -- ELOOP
  | 24 => .outOfResourcesError   -- EMFILE
  | 23 => .outOfResourcesError   -- ENFILE
  | 36 => .invalidArgError   -- ENAMETOOLONG
  | 12 => .memoryError   -- ENOMEM
  | 28 => .outOfResourcesError   -- ENOSPC
  | 20 => .invalidObjectError   -- ENOTDIR
  | 30 => .permissionsError   -- EROFS
  | 26 => .usageError   -- ETXTBSY
  | _ => .unknownError

/-- `write_exception`: `ecl_devices/src/lib/detail/exception_handler_pos.cpp:73-92`. -/
def writeException : Nat → Flag
  | 11 => .blockingError   -- EAGAIN
  | 9 | 22 => .invalidObjectError   -- EBADF, EINVAL
  | 14 => .outOfRange   -- EFAULT
  | 27 => .memoryError   -- EFBIG
  | 4 => .interruptedError   -- EINTR
  | 5 => .systemFailureError   -- EIO
  | 28 => .outOfResourcesError   -- ENOSPC
  | 32 => .permissionsError   -- EPIPE
  | _ => .unknownError

/-- `read_exception`: `ecl_devices/src/lib/detail/exception_handler_pos.cpp:95-112`. -/
def readException : Nat → Flag
  | 11 => .blockingError   -- EAGAIN
  | 9 | 22 => .permissionsError   -- EBADF, EINVAL
  | 14 => .outOfRange   -- EFAULT
  | 4 => .interruptedError   -- EINTR
  | 5 => .systemFailureError   -- EIO
  | 21 => .invalidObjectError   -- EISDIR
  | _ => .unknownError

/-- `sync_exception`: `ecl_devices/src/lib/detail/exception_handler_pos.cpp:113-127`. -/
def syncException : Nat → Flag
  | 9 => .invalidArgError   -- EBADF
  | 5 => .closeError   -- EIO
  | 30 | 22 => .notSupportedError   -- EROFS, EINVAL
  | _ => .unknownError

/-- `close_exception`: `ecl_devices/src/lib/detail/exception_handler_pos.cpp:128-141`. -/
def closeException : Nat → Flag
  | 9 => .invalidArgError   -- EBADF
  | 5 => .systemFailureError   -- EIO
  | 4 => .interruptedError   -- EINTR
  | _ => .unknownError

/-- `open_error`: `ecl_devices/src/lib/detail/error_handler.cpp:34-54`. -/
def openError : Nat → Flag
  | 22 => .invalidArgError   -- EINVAL
  | 13 => .permissionsError   -- EACCES
  | 27 | 75 => .outOfResourcesError   -- EFBIG, EOVERFLOW
  | 4 => .interruptedError   -- EINTR
  | 21 => .invalidObjectError   -- EISDIR
  | 40 => .systemFailureError   -- ELOOP
  | 24 => .outOfResourcesError   -- EMFILE
  | 23 => .outOfResourcesError   -- ENFILE
  | 36 => .invalidArgError   -- ENAMETOOLONG
  | 12 => .memoryError   -- ENOMEM
  | 28 => .outOfResourcesError   -- ENOSPC
  | 20 => .invalidObjectError   -- ENOTDIR
  | 30 => .permissionsError   -- EROFS
  | 26 => .usageError   -- ETXTBSY
  | _ => .unknownError

/-- `write_error`: `ecl_devices/src/lib/detail/error_handler.cpp:57-71`. -/
def writeError : Nat → Flag
  | 11 => .blockingError   -- EAGAIN
  | 9 | 22 => .invalidObjectError   -- EBADF, EINVAL
  | 14 => .outOfRange   -- EFAULT
  | 27 => .memoryError   -- EFBIG
  | 4 => .interruptedError   -- EINTR
  | 5 => .systemFailureError   -- EIO
  | 28 => .outOfResourcesError   -- ENOSPC
  | 32 => .permissionsError   -- EPIPE
  | _ => .unknownError

/-- `read_error`: `ecl_devices/src/lib/detail/error_handler.cpp:74-86`. -/
def readError : Nat → Flag
  | 11 => .blockingError   -- EAGAIN
  | 9 | 22 => .permissionsError   -- EBADF, EINVAL
  | 14 => .outOfRange   -- EFAULT
  | 4 => .interruptedError   -- EINTR
  | 5 => .systemFailureError   -- EIO
  | 21 => .invalidObjectError   -- EISDIR
  | _ => .unknownError

/-- `sync_error`: `ecl_devices/src/lib/detail/error_handler.cpp:87-96`. -/
def syncError : Nat → Flag
  | 9 => .invalidArgError   -- EBADF
  | 5 => .closeError   -- EIO
  | 30 | 22 => .notSupportedError   -- EROFS, EINVAL
  | _ => .unknownError

/-- `close_error`: `ecl_devices/src/lib/detail/error_handler.cpp:97-105`. -/
def closeError : Nat → Flag
  | 9 => .invalidArgError   -- EBADF
  | 5 => .systemFailureError   -- EIO
  | 4 => .interruptedError   -- EINTR
  | _ => .unknownError

/-- `socket_exception`: `ecl_devices/src/lib/detail/socket_exception_handler_pos.cpp:34-50`. -/
def socketException : Nat → Flag
  | 13 => .openError   -- EACCES
  | 97 => .notSupportedError   -- EAFNOSUPPORT
  | 22 => .invalidArgError   -- EINVAL
  | 24 => .outOfRange   -- EMFILE
  | 23 => .outOfResourcesError   -- ENFILE
  | 105 => .memoryError   -- ENOBUFS
  | 12 => .memoryError   -- ENOMEM
  | 93 => .notSupportedError   -- EPROTONOSUPPORT
  | _ => .unknownError

/-- `bind_exception`: `ecl_devices/src/lib/detail/socket_exception_handler_pos.cpp:52-73`. -/
def bindException : Nat → Flag
  | 13 => .permissionsError   -- EACCES
  | 98 => .busyError   -- EADDRINUSE
  | 9 => .invalidObjectError   -- EBADF
  | 22 => .busyError   -- EINVAL
  | 88 => .invalidObjectError   -- ENOTSOCK
  | 99 => .invalidObjectError   -- EADDRNOTAVAIL
  | 14 => .outOfRange   -- EFAULT
  | 40 => .systemFailureError   -- ELOOP
  | 36 => .invalidArgError   -- ENAMETOOLONG
  | 2 => .invalidObjectError   -- ENOENT
  | 12 => .memoryError   -- ENOMEM
  | 20 => .invalidArgError   -- ENOTDIR
  | 30 => .permissionsError   -- EROFS
  | _ => .unknownError

/-- `accept_exception`: `ecl_devices/src/lib/detail/socket_exception_handler_pos.cpp:75-97`. -/
def acceptException : Nat → Flag
  | 11 => .blockingError   -- EWOULDBLOCK
  | 9 => .invalidObjectError   -- EBADF
  | 103 => .interruptedError   -- ECONNABORTED
  | 4 => .interruptedError   -- EINTR
  | 22 => .usageError   -- EINVAL
  | 24 => .outOfResourcesError   -- EMFILE
  | 23 => .outOfResourcesError   -- ENFILE
  | 88 => .invalidObjectError   -- ENOTSOCK
  | 95 => .invalidObjectError   -- EOPNOTSUPP
  | 14 => .permissionsError   -- EFAULT
  | 105 => .memoryError   -- ENOBUFS
  | 12 => .memoryError   -- ENOMEM
  | 71 => .invalidArgError   -- EPROTO
  | 1 => .permissionsError   -- EPERM
  | _ => .unknownError

/-- `receive_exception`: `ecl_devices/src/lib/detail/socket_exception_handler_pos.cpp:99-117`. -/
def receiveException : Nat → Flag
  | 1 => .interruptedError   -- EAGAIN || EWOULDBLOCK
  | 9 => .invalidObjectError   -- EBADF
  | 111 => .connectionError   -- ECONNREFUSED
  | 14 => .systemFailureError   -- EFAULT
  | 4 => .interruptedError   -- EINTR
  | 22 => .invalidArgError   -- EINVAL
  | 12 => .memoryError   -- ENOMEM
  | 107 => .connectionError   -- ENOTCONN
  | 88 => .invalidObjectError   -- ENOTSOCK
  | _ => .unknownError

/-- `send_exception`: `ecl_devices/src/lib/detail/socket_exception_handler_pos.cpp:119-144`. -/
def sendException : Nat → Flag
  | 1 => .blockingError   -- EAGAIN || EWOULDBLOCK
  | 11 => .blockingError   -- EWOULDBLOCK
  | 13 => .permissionsError   -- EACCES
  | 9 => .invalidObjectError   -- EBADF
  | 104 => .interruptedError   -- ECONNRESET
  | 14 => .systemFailureError   -- EFAULT
  | 4 => .interruptedError   -- EINTR
  | 22 => .invalidArgError   -- EINVAL
  | 106 => .connectionError   -- EISCONN
  | 90 => .writeError   -- EMSGSIZE
  | 105 => .outOfResourcesError   -- ENOBUFS
  | 12 => .memoryError   -- ENOMEM
  | 107 => .connectionError   -- ENOTCONN
  | 88 => .invalidObjectError   -- ENOTSOCK
  | 95 => .notSupportedError   -- EOPNOTSUPP
  | 32 => .interruptedError   -- EPIPE
  | _ => .unknownError

/-- `ioctl_exception`: `ecl_devices/src/lib/detail/socket_exception_handler_pos.cpp:146-159`. -/
def ioctlException : Nat → Flag
  | 9 => .invalidObjectError   -- EBADF
  | 14 => .outOfRange   -- EFAULT
  | 22 => .invalidArgError   -- EINVAL
  | 25 => .invalidObjectError   -- ENOTTY
  | _ => .unknownError

/-- `gethostbyname_exception`: `ecl_devices/src/lib/detail/socket_exception_handler_pos.cpp:161-178`. -/
def gethostbynameException : Nat → Flag
  | 1 => .openError   -- HOST_NOT_FOUND
  | 2 => .openError   -- TRY_AGAIN
  | 4 => .invalidArgError   -- NO_ADDRESS
  | 3 => .unknownError   -- NO_RECOVERY
  | _ => .unknownError

/-- `connection_exception`: `ecl_devices/src/lib/detail/socket_exception_handler_pos.cpp:180-204`. -/
def connectionException : Nat → Flag
  | 1 => .permissionsError   -- ( EACCES ) || ( EPERM )
  | 98 => .busyError   -- EADDRINUSE
  | 97 => .notSupportedError   -- EAFNOSUPPORT
  | 11 => .outOfResourcesError   -- EAGAIN
  | 114 => .blockingError   -- EALREADY
  | 9 => .invalidObjectError   -- EBADF
  | 111 => .connectionRefusedError   -- ECONNREFUSED
  | 14 => .outOfRange   -- EFAULT
  | 115 => .blockingError   -- EINPROGRESS
  | 4 => .interruptedError   -- EINTR
  | 106 => .connectionError   -- EISCONN
  | 101 | 113 => .notFoundError   -- ENETUNREACH, EHOSTUNREACH
  | 88 => .invalidObjectError   -- ENOTSOCK
  | 110 => .timeOutError   -- ETIMEDOUT
  | _ => .unknownError

/-- `socket_error`: `ecl_devices/include/ecl/devices/detail/socket_error_handler_pos.hpp:47-59`. -/
def socketError : Nat → Flag
  | 13 => .openError   -- EACCES
  | 97 => .notSupportedError   -- EAFNOSUPPORT
  | 22 => .invalidArgError   -- EINVAL
  | 24 => .outOfRange   -- EMFILE
  | 23 => .outOfResourcesError   -- ENFILE
  | 105 => .memoryError   -- ENOBUFS
  | 12 => .memoryError   -- ENOMEM
  | 93 => .notSupportedError   -- EPROTONOSUPPORT
  | _ => .unknownError

/-- `bind_error`: `ecl_devices/include/ecl/devices/detail/socket_error_handler_pos.hpp:65-82`. -/
def bindError : Nat → Flag
  | 13 => .permissionsError   -- EACCES
  | 98 => .busyError   -- EADDRINUSE
  | 9 => .invalidObjectError   -- EBADF
  | 22 => .busyError   -- EINVAL
  | 88 => .invalidObjectError   -- ENOTSOCK
  | 99 => .invalidObjectError   -- EADDRNOTAVAIL
  | 14 => .outOfRange   -- EFAULT
  | 40 => .systemFailureError   -- ELOOP
  | 36 => .invalidArgError   -- ENAMETOOLONG
  | 2 => .invalidObjectError   -- ENOENT
  | 12 => .memoryError   -- ENOMEM
  | 20 => .invalidArgError   -- ENOTDIR
  | 30 => .permissionsError   -- EROFS
  | _ => .unknownError

/-- `accept_error`: `ecl_devices/include/ecl/devices/detail/socket_error_handler_pos.hpp:88-106`. -/
def acceptError : Nat → Flag
  | 11 => .blockingError   -- EWOULDBLOCK
  | 9 => .invalidObjectError   -- EBADF
  | 103 => .interruptedError   -- ECONNABORTED
  | 4 => .interruptedError   -- EINTR
  | 22 => .usageError   -- EINVAL
  | 24 => .outOfResourcesError   -- EMFILE
  | 23 => .outOfResourcesError   -- ENFILE
  | 88 => .invalidObjectError   -- ENOTSOCK
  | 95 => .invalidObjectError   -- EOPNOTSUPP
  | 14 => .permissionsError   -- EFAULT
  | 105 => .memoryError   -- ENOBUFS
  | 12 => .memoryError   -- ENOMEM
  | 71 => .invalidArgError   -- EPROTO
  | 1 => .permissionsError   -- EPERM
  | _ => .unknownError

/-- `receive_error`: `ecl_devices/include/ecl/devices/detail/socket_error_handler_pos.hpp:112-126`. -/
def receiveError : Nat → Flag
  | 1 => .interruptedError   -- EAGAIN || EWOULDBLOCK
  | 9 => .invalidObjectError   -- EBADF
  | 111 => .connectionError   -- ECONNREFUSED
  | 14 => .systemFailureError   -- EFAULT
  | 4 => .interruptedError   -- EINTR
  | 22 => .invalidArgError   -- EINVAL
  | 12 => .memoryError   -- ENOMEM
  | 107 => .connectionError   -- ENOTCONN
  | 88 => .invalidObjectError   -- ENOTSOCK
  | _ => .unknownError

/-- `ioctl_error`: `ecl_devices/include/ecl/devices/detail/socket_error_handler_pos.hpp:132-141`. -/
def ioctlError : Nat → Flag
  | 9 => .invalidObjectError   -- EBADF
  | 14 => .outOfRange   -- EFAULT
  | 22 => .invalidArgError   -- EINVAL
  | 25 => .invalidObjectError   -- ENOTTY
  | _ => .unknownError

/-- `send_error`: `ecl_devices/include/ecl/devices/detail/socket_error_handler_pos.hpp:148-169`. -/
def sendError : Nat → Flag
  | 1 => .blockingError   -- EAGAIN || EWOULDBLOCK
  | 11 => .blockingError   -- EWOULDBLOCK
  | 13 => .permissionsError   -- EACCES
  | 9 => .invalidObjectError   -- EBADF
  | 104 => .interruptedError   -- ECONNRESET
  | 14 => .systemFailureError   -- EFAULT
  | 4 => .interruptedError   -- EINTR
  | 22 => .invalidArgError   -- EINVAL
  | 106 => .connectionError   -- EISCONN
  | 90 => .writeError   -- EMSGSIZE
  | 105 => .outOfResourcesError   -- ENOBUFS
  | 12 => .memoryError   -- ENOMEM
  | 107 => .connectionError   -- ENOTCONN
  | 88 => .invalidObjectError   -- ENOTSOCK
  | 95 => .notSupportedError   -- EOPNOTSUPP
  | 32 => .interruptedError   -- EPIPE
  | _ => .unknownError

/-- `gethostbyname_error`: `ecl_devices/include/ecl/devices/detail/socket_error_handler_pos.hpp:176-183`. -/
def gethostbynameError : Nat → Flag
  | 1 => .connectionError   -- HOST_NOT_FOUND
  | 4 => .invalidArgError   -- NO_ADDRESS
  | 3 => .unknownError   -- NO_RECOVERY
  | _ => .unknownError

/-- `connection_error`: `ecl_devices/include/ecl/devices/detail/socket_error_handler_pos.hpp:189-207`. -/
def connectionError : Nat → Flag
  | 1 => .permissionsError   -- ( EACCES ) || ( EPERM )
  | 98 => .busyError   -- EADDRINUSE
  | 97 => .notSupportedError   -- EAFNOSUPPORT
  | 11 => .outOfResourcesError   -- EAGAIN
  | 114 => .blockingError   -- EALREADY
  | 9 => .invalidObjectError   -- EBADF
  | 111 => .connectionRefusedError   -- ECONNREFUSED
  | 14 => .outOfRange   -- EFAULT
  | 115 => .blockingError   -- EINPROGRESS
  | 4 => .interruptedError   -- EINTR
  | 106 => .connectionError   -- EISCONN
  | 101 => .configurationError   -- ENETUNREACH
  | 88 => .invalidObjectError   -- ENOTSOCK
  | 110 => .timeOutError   -- ETIMEDOUT
  | _ => .unknownError

end Ecl.Errno
