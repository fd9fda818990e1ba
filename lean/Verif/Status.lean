/-
Status codes of rcpr.

Model of include/rcpr/status.h, include/rcpr/component.h and
include/rcpr/status/*.h.
-/
namespace Rcpr

/-- `typedef int32_t status` (include/rcpr/status.h:36). The sign is irrelevant
here, so a status is its 32-bit pattern. -/
abbrev Status := BitVec 32

/-- `COMPONENT_MAKE(family, subcomponent)` (include/rcpr/component.h:20-21). -/
def componentMake (family sub : BitVec 32) : BitVec 32 :=
  ((family <<< 8) &&& 0xFF00#32) ||| (sub &&& 0x00FF#32)

/-- `STATUS_CODE(error_flag, component_code, reason_code)`
(include/rcpr/status.h:47-50). -/
def statusCode (errorFlag component reason : BitVec 32) : Status :=
  ((if errorFlag = 1#32 then (-1 : BitVec 32) else 0#32) &&& ~~~ 0x7FFFFFFF#32)
    ||| ((component &&& 0x0000FFFF#32) <<< 15)
    ||| (reason &&& 0x00007FFF#32)

/-- `STATUS_SUCCESS` (include/rcpr/status.h:41). -/
def SUCCESS : Status := 0#32

/-- `RCPR_COMPONENT_GLOBAL` (include/rcpr/component.h:193). -/
def COMPONENT_GLOBAL : BitVec 32 := componentMake 0x00#32 0x00#32
/-- `RCPR_COMPONENT_RESOURCE` (include/rcpr/component.h:197). -/
def COMPONENT_RESOURCE : BitVec 32 := componentMake 0x00#32 0x01#32
/-- `RCPR_COMPONENT_ALLOCATOR` (include/rcpr/component.h:201). -/
def COMPONENT_ALLOCATOR : BitVec 32 := componentMake 0x00#32 0x02#32
/-- `RCPR_COMPONENT_SOCKET_UTILITIES` (include/rcpr/component.h:205). -/
def COMPONENT_SOCKET_UTILITIES : BitVec 32 := componentMake 0x00#32 0x03#32
/-- `RCPR_COMPONENT_PSOCK` (include/rcpr/component.h:209). -/
def COMPONENT_PSOCK : BitVec 32 := componentMake 0x00#32 0x04#32
/-- `RCPR_COMPONENT_THREAD` (include/rcpr/component.h:213). -/
def COMPONENT_THREAD : BitVec 32 := componentMake 0x00#32 0x05#32
/-- `RCPR_COMPONENT_STACK` (include/rcpr/component.h:217). -/
def COMPONENT_STACK : BitVec 32 := componentMake 0x00#32 0x06#32
/-- `RCPR_COMPONENT_FIBER` (include/rcpr/component.h:221). -/
def COMPONENT_FIBER : BitVec 32 := componentMake 0x00#32 0x07#32
/-- `RCPR_COMPONENT_RBTREE` (include/rcpr/component.h:225). -/
def COMPONENT_RBTREE : BitVec 32 := componentMake 0x00#32 0x08#32
/-- `RCPR_COMPONENT_UUID` (include/rcpr/component.h:229). -/
def COMPONENT_UUID : BitVec 32 := componentMake 0x00#32 0x09#32
/-- `RCPR_COMPONENT_MESSAGE` (include/rcpr/component.h:233). -/
def COMPONENT_MESSAGE : BitVec 32 := componentMake 0x00#32 0x0a#32
/-- `RCPR_COMPONENT_STRING` (include/rcpr/component.h:237). -/
def COMPONENT_STRING : BitVec 32 := componentMake 0x00#32 0x0b#32
/-- `RCPR_COMPONENT_AUTO_RESET_TRIGGER` (include/rcpr/component.h:241). -/
def COMPONENT_AUTO_RESET_TRIGGER : BitVec 32 := componentMake 0x00#32 0x0c#32
/-- `RCPR_COMPONENT_CONDITION` (include/rcpr/component.h:245). -/
def COMPONENT_CONDITION : BitVec 32 := componentMake 0x00#32 0x0d#32

/-- include/rcpr/status/auto_reset_trigger.h:18 -/
def ERROR_AUTO_RESET_TRIGGER_LISTENER_ALREADY_REGISTERED : Status := statusCode 1#32 COMPONENT_AUTO_RESET_TRIGGER 0x0000#32
/-- include/rcpr/status/condition.h:17 -/
def ERROR_CONDITION_UNKNOWN_ERROR : Status := statusCode 1#32 COMPONENT_CONDITION 0x0000#32
/-- include/rcpr/status/fiber.h:17 -/
def ERROR_FIBER_SCHEDULER_CALLBACK_STATE : Status := statusCode 1#32 COMPONENT_FIBER 0x0000#32
/-- include/rcpr/status/fiber.h:23 -/
def ERROR_FIBER_SCHEDULER_DISCIPLINE_NOT_FOUND : Status := statusCode 1#32 COMPONENT_FIBER 0x0001#32
/-- include/rcpr/status/fiber.h:30 -/
def ERROR_FIBER_SCHEDULER_NOT_DISCIPLINED : Status := statusCode 1#32 COMPONENT_FIBER 0x0002#32
/-- include/rcpr/status/fiber.h:37 -/
def ERROR_FIBER_SCHEDULER_DUPLICATE_DISCIPLINE_ID : Status := statusCode 1#32 COMPONENT_FIBER 0x0003#32
/-- include/rcpr/status/fiber.h:44 -/
def ERROR_FIBER_SCHEDULER_DISCIPLINE_ALREADY_OWNED : Status := statusCode 1#32 COMPONENT_FIBER 0x0004#32
/-- include/rcpr/status/fiber.h:50 -/
def ERROR_FIBER_SCHEDULER_BAD_YIELD_EVENT : Status := statusCode 1#32 COMPONENT_FIBER 0x0005#32
/-- include/rcpr/status/fiber.h:56 -/
def ERROR_FIBER_SCHEDULER_EXHAUSTED : Status := statusCode 1#32 COMPONENT_FIBER 0x0006#32
/-- include/rcpr/status/fiber.h:62 -/
def ERROR_FIBER_UNEXPECTED_RESUME_EVENT : Status := statusCode 1#32 COMPONENT_FIBER 0x0007#32
/-- include/rcpr/status/fiber.h:68 -/
def ERROR_FIBER_INVALID_STATE : Status := statusCode 1#32 COMPONENT_FIBER 0x0008#32
/-- include/rcpr/status/fiber.h:75 -/
def ERROR_FIBER_NO_UNEXPECTED_HANDLER : Status := statusCode 1#32 COMPONENT_FIBER 0x0009#32
/-- include/rcpr/status/general.h:17 -/
def ERROR_GENERAL_OUT_OF_MEMORY : Status := statusCode 1#32 COMPONENT_GLOBAL 0x0000#32
/-- include/rcpr/status/general.h:23 -/
def ERROR_GENERAL_BAD_VTABLE : Status := statusCode 1#32 COMPONENT_GLOBAL 0x0001#32
/-- include/rcpr/status/general.h:29 -/
def ERROR_GENERAL_CONTROL_KEY_INVALID : Status := statusCode 1#32 COMPONENT_GLOBAL 0x0002#32
/-- include/rcpr/status/general.h:35 -/
def ERROR_GENERAL_REALLOCATION_NOT_SUPPORTED : Status := statusCode 1#32 COMPONENT_GLOBAL 0x0003#32
/-- include/rcpr/status/general.h:41 -/
def ERROR_GENERAL_INVALID_ARGUMENTS : Status := statusCode 1#32 COMPONENT_GLOBAL 0x0004#32
/-- include/rcpr/status/message.h:17 -/
def ERROR_MESSAGE_ALREADY_BLOCKED : Status := statusCode 1#32 COMPONENT_MESSAGE 0x0000#32
/-- include/rcpr/status/message.h:23 -/
def ERROR_MESSAGE_UNKNOWN_ERROR : Status := statusCode 1#32 COMPONENT_MESSAGE 0x0001#32
/-- include/rcpr/status/psock.h:17 -/
def ERROR_PSOCK_READ_GENERAL : Status := statusCode 1#32 COMPONENT_PSOCK 0x0000#32
/-- include/rcpr/status/psock.h:23 -/
def ERROR_PSOCK_WRITE_GENERAL : Status := statusCode 1#32 COMPONENT_PSOCK 0x0001#32
/-- include/rcpr/status/psock.h:30 -/
def ERROR_PSOCK_READ_WOULD_BLOCK : Status := statusCode 1#32 COMPONENT_PSOCK 0x0002#32
/-- include/rcpr/status/psock.h:37 -/
def ERROR_PSOCK_WRITE_WOULD_BLOCK : Status := statusCode 1#32 COMPONENT_PSOCK 0x0003#32
/-- include/rcpr/status/psock.h:43 -/
def ERROR_PSOCK_READ_INVALID_SIZE : Status := statusCode 1#32 COMPONENT_PSOCK 0x0004#32
/-- include/rcpr/status/psock.h:49 -/
def ERROR_PSOCK_WRITE_INVALID_SIZE : Status := statusCode 1#32 COMPONENT_PSOCK 0x0005#32
/-- include/rcpr/status/psock.h:55 -/
def ERROR_PSOCK_READ_BOXED_INVALID_TYPE : Status := statusCode 1#32 COMPONENT_PSOCK 0x0006#32
/-- include/rcpr/status/psock.h:61 -/
def ERROR_PSOCK_READ_BOXED_INVALID_SIZE : Status := statusCode 1#32 COMPONENT_PSOCK 0x0007#32
/-- include/rcpr/status/psock.h:67 -/
def ERROR_PSOCK_KEVENT_FAILED : Status := statusCode 1#32 COMPONENT_PSOCK 0x0008#32
/-- include/rcpr/status/psock.h:73 -/
def ERROR_PSOCK_KQUEUE_FAILED : Status := statusCode 1#32 COMPONENT_PSOCK 0x0009#32
/-- include/rcpr/status/psock.h:79 -/
def ERROR_PSOCK_UNSUPPORTED_TYPE : Status := statusCode 1#32 COMPONENT_PSOCK 0x000a#32
/-- include/rcpr/status/psock.h:86 -/
def ERROR_PSOCK_ACCEPT_WOULD_BLOCK : Status := statusCode 1#32 COMPONENT_PSOCK 0x000b#32
/-- include/rcpr/status/psock.h:92 -/
def ERROR_PSOCK_ACCEPT_GENERAL : Status := statusCode 1#32 COMPONENT_PSOCK 0x000c#32
/-- include/rcpr/status/psock.h:98 -/
def ERROR_PSOCK_CREATE_FROM_ADDRESS_SOCKET_CREATE : Status := statusCode 1#32 COMPONENT_PSOCK 0x000d#32
/-- include/rcpr/status/psock.h:104 -/
def ERROR_PSOCK_CREATE_FROM_ADDRESS_BIND : Status := statusCode 1#32 COMPONENT_PSOCK 0x000e#32
/-- include/rcpr/status/psock.h:110 -/
def ERROR_PSOCK_CREATE_FROM_ADDRESS_LISTEN : Status := statusCode 1#32 COMPONENT_PSOCK 0x000f#32
/-- include/rcpr/status/psock.h:116 -/
def ERROR_PSOCK_CREATE_FROM_ADDRESS_CLOSE : Status := statusCode 1#32 COMPONENT_PSOCK 0x0010#32
/-- include/rcpr/status/psock.h:122 -/
def ERROR_PSOCK_READ_EOF : Status := statusCode 1#32 COMPONENT_PSOCK 0x0011#32
/-- include/rcpr/status/psock.h:128 -/
def ERROR_PSOCK_WRITE_EOF : Status := statusCode 1#32 COMPONENT_PSOCK 0x0012#32
/-- include/rcpr/status/psock.h:134 -/
def ERROR_PSOCK_EPOLL_CREATE_FAILED : Status := statusCode 1#32 COMPONENT_PSOCK 0x0013#32
/-- include/rcpr/status/psock.h:140 -/
def ERROR_PSOCK_EPOLL_CTL_FAILED : Status := statusCode 1#32 COMPONENT_PSOCK 0x0014#32
/-- include/rcpr/status/psock.h:146 -/
def ERROR_PSOCK_EPOLL_WAIT_FAILED : Status := statusCode 1#32 COMPONENT_PSOCK 0x0015#32
/-- include/rcpr/status/psock.h:152 -/
def ERROR_PSOCK_POLL_FAILED : Status := statusCode 1#32 COMPONENT_PSOCK 0x0016#32
/-- include/rcpr/status/psock.h:158 -/
def ERROR_PSOCK_SENDMSG_FAILED : Status := statusCode 1#32 COMPONENT_PSOCK 0x0017#32
/-- include/rcpr/status/psock.h:164 -/
def ERROR_PSOCK_RECVMSG_FAILED : Status := statusCode 1#32 COMPONENT_PSOCK 0x0018#32
/-- include/rcpr/status/psock.h:170 -/
def ERROR_PSOCK_USER_METHOD_UNDEFINED : Status := statusCode 1#32 COMPONENT_PSOCK 0x0019#32
/-- include/rcpr/status/psock.h:176 -/
def ERROR_PSOCK_HOSTNAME_LOOKUP_FAILURE : Status := statusCode 1#32 COMPONENT_PSOCK 0x001a#32
/-- include/rcpr/status/psock.h:182 -/
def ERROR_PSOCK_SOCKET_CREATE : Status := statusCode 1#32 COMPONENT_PSOCK 0x001b#32
/-- include/rcpr/status/psock.h:188 -/
def ERROR_PSOCK_CONNECTION_REFUSED : Status := statusCode 1#32 COMPONENT_PSOCK 0x001c#32
/-- include/rcpr/status/psock.h:194 -/
def ERROR_PSOCK_OPERATION_NOT_SUPPORTED : Status := statusCode 1#32 COMPONENT_PSOCK 0x001d#32
/-- include/rcpr/status/psock.h:200 -/
def ERROR_PSOCK_BR_READ_LINE_BAD_LOOP_INVARIANT : Status := statusCode 1#32 COMPONENT_PSOCK 0x001e#32
/-- include/rcpr/status/psock.h:206 -/
def ERROR_PSOCK_BR_READ_LINE_BUFFER_SIZE_TOO_SMALL : Status := statusCode 1#32 COMPONENT_PSOCK 0x001f#32
/-- include/rcpr/status/psock.h:212 -/
def ERROR_PSOCK_BR_READ_LINE_TRUNCATED : Status := statusCode 1#32 COMPONENT_PSOCK 0x0020#32
/-- include/rcpr/status/psock.h:219 -/
def ERROR_PSOCK_DOUBLE_BLOCK_UNSUPPORTED : Status := statusCode 1#32 COMPONENT_PSOCK 0x0021#32
/-- include/rcpr/status/psock.h:225 -/
def ERROR_PSOCK_METHOD_UNDEFINED : Status := statusCode 1#32 COMPONENT_PSOCK 0x0022#32
/-- include/rcpr/status/psock.h:231 -/
def ERROR_PSOCK_SETSOCKOPT : Status := statusCode 1#32 COMPONENT_PSOCK 0x0023#32
/-- include/rcpr/status/rbtree.h:17 -/
def ERROR_RBTREE_NIL_NODE_CANNOT_BE_RELEASED : Status := statusCode 1#32 COMPONENT_RBTREE 0x0000#32
/-- include/rcpr/status/rbtree.h:23 -/
def ERROR_RBTREE_NOT_FOUND : Status := statusCode 1#32 COMPONENT_RBTREE 0x0001#32
/-- include/rcpr/status/socket_utilities.h:17 -/
def ERROR_SOCKET_UTILITIES_SOCKETPAIR_FAILURE : Status := statusCode 1#32 COMPONENT_SOCKET_UTILITIES 0x0000#32
/-- include/rcpr/status/socket_utilities.h:23 -/
def ERROR_SOCKET_UTILITIES_SET_NONBLOCK_FAILURE : Status := statusCode 1#32 COMPONENT_SOCKET_UTILITIES 0x0001#32
/-- include/rcpr/status/socket_utilities.h:29 -/
def ERROR_SOCKET_UTILITIES_DUP2_FAILURE : Status := statusCode 1#32 COMPONENT_SOCKET_UTILITIES 0x0002#32
/-- include/rcpr/status/stack.h:17 -/
def ERROR_STACK_UNMAP : Status := statusCode 1#32 COMPONENT_STACK 0x0000#32
/-- include/rcpr/status/string.h:17 -/
def ERROR_STRING_INVALID_PARAMETER : Status := statusCode 1#32 COMPONENT_STRING 0x0000#32
/-- include/rcpr/status/string.h:24 -/
def ERROR_STRING_END_OF_INPUT : Status := statusCode 1#32 COMPONENT_STRING 0x0001#32
/-- include/rcpr/status/thread.h:17 -/
def ERROR_THREAD_ATTRIBUTE_INIT : Status := statusCode 1#32 COMPONENT_THREAD 0x0000#32
/-- include/rcpr/status/thread.h:23 -/
def ERROR_THREAD_ATTRIBUTE_SETSTACKSIZE : Status := statusCode 1#32 COMPONENT_THREAD 0x0001#32
/-- include/rcpr/status/thread.h:29 -/
def ERROR_THREAD_CREATE : Status := statusCode 1#32 COMPONENT_THREAD 0x0002#32
/-- include/rcpr/status/thread.h:35 -/
def ERROR_THREAD_JOIN : Status := statusCode 1#32 COMPONENT_THREAD 0x0003#32
/-- include/rcpr/status/thread.h:41 -/
def ERROR_THREAD_MUTEX_INIT : Status := statusCode 1#32 COMPONENT_THREAD 0x0004#32
/-- include/rcpr/status/thread.h:47 -/
def ERROR_THREAD_MUTEX_DESTROY : Status := statusCode 1#32 COMPONENT_THREAD 0x0005#32
/-- include/rcpr/status/thread.h:53 -/
def ERROR_THREAD_MUTEX_UNLOCK : Status := statusCode 1#32 COMPONENT_THREAD 0x0006#32
/-- include/rcpr/status/thread.h:59 -/
def ERROR_THREAD_MUTEX_LOCK : Status := statusCode 1#32 COMPONENT_THREAD 0x0007#32
/-- include/rcpr/status/thread.h:65 -/
def ERROR_THREAD_COND_INIT : Status := statusCode 1#32 COMPONENT_THREAD 0x0008#32
/-- include/rcpr/status/thread.h:71 -/
def ERROR_THREAD_COND_DESTROY : Status := statusCode 1#32 COMPONENT_THREAD 0x0009#32
/-- include/rcpr/status/thread.h:77 -/
def ERROR_THREAD_COND_WAIT : Status := statusCode 1#32 COMPONENT_THREAD 0x000a#32
/-- include/rcpr/status/uuid.h:17 -/
def ERROR_UUID_PARSING_FAILED : Status := statusCode 1#32 COMPONENT_UUID 0x0000#32

/-- Every named error status, with the component and reason it is declared with
(all `#define ERROR_*` of include/rcpr/status/*.h). -/
def allErrors : List (String × Status × BitVec 32 × BitVec 32) :=
  [("ERROR_AUTO_RESET_TRIGGER_LISTENER_ALREADY_REGISTERED", ERROR_AUTO_RESET_TRIGGER_LISTENER_ALREADY_REGISTERED, COMPONENT_AUTO_RESET_TRIGGER, 0x0000#32),
   ("ERROR_CONDITION_UNKNOWN_ERROR", ERROR_CONDITION_UNKNOWN_ERROR, COMPONENT_CONDITION, 0x0000#32),
   ("ERROR_FIBER_SCHEDULER_CALLBACK_STATE", ERROR_FIBER_SCHEDULER_CALLBACK_STATE, COMPONENT_FIBER, 0x0000#32),
   ("ERROR_FIBER_SCHEDULER_DISCIPLINE_NOT_FOUND", ERROR_FIBER_SCHEDULER_DISCIPLINE_NOT_FOUND, COMPONENT_FIBER, 0x0001#32),
   ("ERROR_FIBER_SCHEDULER_NOT_DISCIPLINED", ERROR_FIBER_SCHEDULER_NOT_DISCIPLINED, COMPONENT_FIBER, 0x0002#32),
   ("ERROR_FIBER_SCHEDULER_DUPLICATE_DISCIPLINE_ID", ERROR_FIBER_SCHEDULER_DUPLICATE_DISCIPLINE_ID, COMPONENT_FIBER, 0x0003#32),
   ("ERROR_FIBER_SCHEDULER_DISCIPLINE_ALREADY_OWNED", ERROR_FIBER_SCHEDULER_DISCIPLINE_ALREADY_OWNED, COMPONENT_FIBER, 0x0004#32),
   ("ERROR_FIBER_SCHEDULER_BAD_YIELD_EVENT", ERROR_FIBER_SCHEDULER_BAD_YIELD_EVENT, COMPONENT_FIBER, 0x0005#32),
   ("ERROR_FIBER_SCHEDULER_EXHAUSTED", ERROR_FIBER_SCHEDULER_EXHAUSTED, COMPONENT_FIBER, 0x0006#32),
   ("ERROR_FIBER_UNEXPECTED_RESUME_EVENT", ERROR_FIBER_UNEXPECTED_RESUME_EVENT, COMPONENT_FIBER, 0x0007#32),
   ("ERROR_FIBER_INVALID_STATE", ERROR_FIBER_INVALID_STATE, COMPONENT_FIBER, 0x0008#32),
   ("ERROR_FIBER_NO_UNEXPECTED_HANDLER", ERROR_FIBER_NO_UNEXPECTED_HANDLER, COMPONENT_FIBER, 0x0009#32),
   ("ERROR_GENERAL_OUT_OF_MEMORY", ERROR_GENERAL_OUT_OF_MEMORY, COMPONENT_GLOBAL, 0x0000#32),
   ("ERROR_GENERAL_BAD_VTABLE", ERROR_GENERAL_BAD_VTABLE, COMPONENT_GLOBAL, 0x0001#32),
   ("ERROR_GENERAL_CONTROL_KEY_INVALID", ERROR_GENERAL_CONTROL_KEY_INVALID, COMPONENT_GLOBAL, 0x0002#32),
   ("ERROR_GENERAL_REALLOCATION_NOT_SUPPORTED", ERROR_GENERAL_REALLOCATION_NOT_SUPPORTED, COMPONENT_GLOBAL, 0x0003#32),
   ("ERROR_GENERAL_INVALID_ARGUMENTS", ERROR_GENERAL_INVALID_ARGUMENTS, COMPONENT_GLOBAL, 0x0004#32),
   ("ERROR_MESSAGE_ALREADY_BLOCKED", ERROR_MESSAGE_ALREADY_BLOCKED, COMPONENT_MESSAGE, 0x0000#32),
   ("ERROR_MESSAGE_UNKNOWN_ERROR", ERROR_MESSAGE_UNKNOWN_ERROR, COMPONENT_MESSAGE, 0x0001#32),
   ("ERROR_PSOCK_READ_GENERAL", ERROR_PSOCK_READ_GENERAL, COMPONENT_PSOCK, 0x0000#32),
   ("ERROR_PSOCK_WRITE_GENERAL", ERROR_PSOCK_WRITE_GENERAL, COMPONENT_PSOCK, 0x0001#32),
   ("ERROR_PSOCK_READ_WOULD_BLOCK", ERROR_PSOCK_READ_WOULD_BLOCK, COMPONENT_PSOCK, 0x0002#32),
   ("ERROR_PSOCK_WRITE_WOULD_BLOCK", ERROR_PSOCK_WRITE_WOULD_BLOCK, COMPONENT_PSOCK, 0x0003#32),
   ("ERROR_PSOCK_READ_INVALID_SIZE", ERROR_PSOCK_READ_INVALID_SIZE, COMPONENT_PSOCK, 0x0004#32),
   ("ERROR_PSOCK_WRITE_INVALID_SIZE", ERROR_PSOCK_WRITE_INVALID_SIZE, COMPONENT_PSOCK, 0x0005#32),
   ("ERROR_PSOCK_READ_BOXED_INVALID_TYPE", ERROR_PSOCK_READ_BOXED_INVALID_TYPE, COMPONENT_PSOCK, 0x0006#32),
   ("ERROR_PSOCK_READ_BOXED_INVALID_SIZE", ERROR_PSOCK_READ_BOXED_INVALID_SIZE, COMPONENT_PSOCK, 0x0007#32),
   ("ERROR_PSOCK_KEVENT_FAILED", ERROR_PSOCK_KEVENT_FAILED, COMPONENT_PSOCK, 0x0008#32),
   ("ERROR_PSOCK_KQUEUE_FAILED", ERROR_PSOCK_KQUEUE_FAILED, COMPONENT_PSOCK, 0x0009#32),
   ("ERROR_PSOCK_UNSUPPORTED_TYPE", ERROR_PSOCK_UNSUPPORTED_TYPE, COMPONENT_PSOCK, 0x000a#32),
   ("ERROR_PSOCK_ACCEPT_WOULD_BLOCK", ERROR_PSOCK_ACCEPT_WOULD_BLOCK, COMPONENT_PSOCK, 0x000b#32),
   ("ERROR_PSOCK_ACCEPT_GENERAL", ERROR_PSOCK_ACCEPT_GENERAL, COMPONENT_PSOCK, 0x000c#32),
   ("ERROR_PSOCK_CREATE_FROM_ADDRESS_SOCKET_CREATE", ERROR_PSOCK_CREATE_FROM_ADDRESS_SOCKET_CREATE, COMPONENT_PSOCK, 0x000d#32),
   ("ERROR_PSOCK_CREATE_FROM_ADDRESS_BIND", ERROR_PSOCK_CREATE_FROM_ADDRESS_BIND, COMPONENT_PSOCK, 0x000e#32),
   ("ERROR_PSOCK_CREATE_FROM_ADDRESS_LISTEN", ERROR_PSOCK_CREATE_FROM_ADDRESS_LISTEN, COMPONENT_PSOCK, 0x000f#32),
   ("ERROR_PSOCK_CREATE_FROM_ADDRESS_CLOSE", ERROR_PSOCK_CREATE_FROM_ADDRESS_CLOSE, COMPONENT_PSOCK, 0x0010#32),
   ("ERROR_PSOCK_READ_EOF", ERROR_PSOCK_READ_EOF, COMPONENT_PSOCK, 0x0011#32),
   ("ERROR_PSOCK_WRITE_EOF", ERROR_PSOCK_WRITE_EOF, COMPONENT_PSOCK, 0x0012#32),
   ("ERROR_PSOCK_EPOLL_CREATE_FAILED", ERROR_PSOCK_EPOLL_CREATE_FAILED, COMPONENT_PSOCK, 0x0013#32),
   ("ERROR_PSOCK_EPOLL_CTL_FAILED", ERROR_PSOCK_EPOLL_CTL_FAILED, COMPONENT_PSOCK, 0x0014#32),
   ("ERROR_PSOCK_EPOLL_WAIT_FAILED", ERROR_PSOCK_EPOLL_WAIT_FAILED, COMPONENT_PSOCK, 0x0015#32),
   ("ERROR_PSOCK_POLL_FAILED", ERROR_PSOCK_POLL_FAILED, COMPONENT_PSOCK, 0x0016#32),
   ("ERROR_PSOCK_SENDMSG_FAILED", ERROR_PSOCK_SENDMSG_FAILED, COMPONENT_PSOCK, 0x0017#32),
   ("ERROR_PSOCK_RECVMSG_FAILED", ERROR_PSOCK_RECVMSG_FAILED, COMPONENT_PSOCK, 0x0018#32),
   ("ERROR_PSOCK_USER_METHOD_UNDEFINED", ERROR_PSOCK_USER_METHOD_UNDEFINED, COMPONENT_PSOCK, 0x0019#32),
   ("ERROR_PSOCK_HOSTNAME_LOOKUP_FAILURE", ERROR_PSOCK_HOSTNAME_LOOKUP_FAILURE, COMPONENT_PSOCK, 0x001a#32),
   ("ERROR_PSOCK_SOCKET_CREATE", ERROR_PSOCK_SOCKET_CREATE, COMPONENT_PSOCK, 0x001b#32),
   ("ERROR_PSOCK_CONNECTION_REFUSED", ERROR_PSOCK_CONNECTION_REFUSED, COMPONENT_PSOCK, 0x001c#32),
   ("ERROR_PSOCK_OPERATION_NOT_SUPPORTED", ERROR_PSOCK_OPERATION_NOT_SUPPORTED, COMPONENT_PSOCK, 0x001d#32),
   ("ERROR_PSOCK_BR_READ_LINE_BAD_LOOP_INVARIANT", ERROR_PSOCK_BR_READ_LINE_BAD_LOOP_INVARIANT, COMPONENT_PSOCK, 0x001e#32),
   ("ERROR_PSOCK_BR_READ_LINE_BUFFER_SIZE_TOO_SMALL", ERROR_PSOCK_BR_READ_LINE_BUFFER_SIZE_TOO_SMALL, COMPONENT_PSOCK, 0x001f#32),
   ("ERROR_PSOCK_BR_READ_LINE_TRUNCATED", ERROR_PSOCK_BR_READ_LINE_TRUNCATED, COMPONENT_PSOCK, 0x0020#32),
   ("ERROR_PSOCK_DOUBLE_BLOCK_UNSUPPORTED", ERROR_PSOCK_DOUBLE_BLOCK_UNSUPPORTED, COMPONENT_PSOCK, 0x0021#32),
   ("ERROR_PSOCK_METHOD_UNDEFINED", ERROR_PSOCK_METHOD_UNDEFINED, COMPONENT_PSOCK, 0x0022#32),
   ("ERROR_PSOCK_SETSOCKOPT", ERROR_PSOCK_SETSOCKOPT, COMPONENT_PSOCK, 0x0023#32),
   ("ERROR_RBTREE_NIL_NODE_CANNOT_BE_RELEASED", ERROR_RBTREE_NIL_NODE_CANNOT_BE_RELEASED, COMPONENT_RBTREE, 0x0000#32),
   ("ERROR_RBTREE_NOT_FOUND", ERROR_RBTREE_NOT_FOUND, COMPONENT_RBTREE, 0x0001#32),
   ("ERROR_SOCKET_UTILITIES_SOCKETPAIR_FAILURE", ERROR_SOCKET_UTILITIES_SOCKETPAIR_FAILURE, COMPONENT_SOCKET_UTILITIES, 0x0000#32),
   ("ERROR_SOCKET_UTILITIES_SET_NONBLOCK_FAILURE", ERROR_SOCKET_UTILITIES_SET_NONBLOCK_FAILURE, COMPONENT_SOCKET_UTILITIES, 0x0001#32),
   ("ERROR_SOCKET_UTILITIES_DUP2_FAILURE", ERROR_SOCKET_UTILITIES_DUP2_FAILURE, COMPONENT_SOCKET_UTILITIES, 0x0002#32),
   ("ERROR_STACK_UNMAP", ERROR_STACK_UNMAP, COMPONENT_STACK, 0x0000#32),
   ("ERROR_STRING_INVALID_PARAMETER", ERROR_STRING_INVALID_PARAMETER, COMPONENT_STRING, 0x0000#32),
   ("ERROR_STRING_END_OF_INPUT", ERROR_STRING_END_OF_INPUT, COMPONENT_STRING, 0x0001#32),
   ("ERROR_THREAD_ATTRIBUTE_INIT", ERROR_THREAD_ATTRIBUTE_INIT, COMPONENT_THREAD, 0x0000#32),
   ("ERROR_THREAD_ATTRIBUTE_SETSTACKSIZE", ERROR_THREAD_ATTRIBUTE_SETSTACKSIZE, COMPONENT_THREAD, 0x0001#32),
   ("ERROR_THREAD_CREATE", ERROR_THREAD_CREATE, COMPONENT_THREAD, 0x0002#32),
   ("ERROR_THREAD_JOIN", ERROR_THREAD_JOIN, COMPONENT_THREAD, 0x0003#32),
   ("ERROR_THREAD_MUTEX_INIT", ERROR_THREAD_MUTEX_INIT, COMPONENT_THREAD, 0x0004#32),
   ("ERROR_THREAD_MUTEX_DESTROY", ERROR_THREAD_MUTEX_DESTROY, COMPONENT_THREAD, 0x0005#32),
   ("ERROR_THREAD_MUTEX_UNLOCK", ERROR_THREAD_MUTEX_UNLOCK, COMPONENT_THREAD, 0x0006#32),
   ("ERROR_THREAD_MUTEX_LOCK", ERROR_THREAD_MUTEX_LOCK, COMPONENT_THREAD, 0x0007#32),
   ("ERROR_THREAD_COND_INIT", ERROR_THREAD_COND_INIT, COMPONENT_THREAD, 0x0008#32),
   ("ERROR_THREAD_COND_DESTROY", ERROR_THREAD_COND_DESTROY, COMPONENT_THREAD, 0x0009#32),
   ("ERROR_THREAD_COND_WAIT", ERROR_THREAD_COND_WAIT, COMPONENT_THREAD, 0x000a#32),
   ("ERROR_UUID_PARSING_FAILED", ERROR_UUID_PARSING_FAILED, COMPONENT_UUID, 0x0000#32)]

end Rcpr
