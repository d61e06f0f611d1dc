import Verif.Libc.Model

/-!
# The application server `slang-app`

Every request is handled in a process of its own; the script sees its parameters as environment variables.
-/

namespace Verif.Web

open Verif.Libc

/-- A text of the source as bytes. -/
def bytes (s : String) : Bytes := s.toList.map Char.toNat

/-- A request: what `FCGX_GetParam` gives for a name, `none` for a null pointer.  The texts are C strings. -/
structure Request where
  param : Bytes → Option Bytes

/-- The services of the configuration file: `Application::loadServices`
(`slang-app/Application/Application.cpp:199-218`): path and entry point each, and the entry point of the default
service. -/
structure Server where
  services : List (Bytes × Bytes)
  fallback : Option Bytes
  deriving DecidableEq, Repr

/-- The variables set by `Service::prepareEnvironment` (`slang-app/Common/Service.cpp:84-126`), in order; `true`: set by a
plain `setenv`, `false`: by `setenv_s`. -/
def settings : List (Bytes × Bool) :=
  [(bytes "HTTP_ACCEPT", false), (bytes "HTTP_COOKIE", false), (bytes "HTTP_FORWARDED", false), (bytes "HTTP_HOST", false),
   (bytes "HTTP_PROXY_CONNECTION", false), (bytes "HTTP_REFERER", false), (bytes "HTTP_USER_AGENT", false),
   (bytes "REQUEST_SCHEME", false), (bytes "REQUEST_METHOD", true), (bytes "REQUEST_URI", true),
   (bytes "DOCUMENT_URI", false), (bytes "REQUEST_FILENAME", false), (bytes "SCRIPT_FILENAME", false),
   (bytes "LAST_MODIFIED", false), (bytes "SCRIPT_USER", false), (bytes "SCRIPT_GROUP", false), (bytes "PATH_INFO", false),
   (bytes "QUERY_STRING", true), (bytes "IS_SUBREQ", false), (bytes "THE_REQUEST", false), (bytes "REMOTE_ADDR", false),
   (bytes "REMOTE_PORT", false), (bytes "REMOTE_HOST", false), (bytes "REMOTE_USER", false), (bytes "REMOTE_IDENT", false),
   (bytes "SERVER_NAME", false), (bytes "SERVER_PORT", false), (bytes "SERVER_ADMIN", false),
   (bytes "SERVER_PROTOCOL", false), (bytes "DOCUMENT_ROOT", false), (bytes "AUTH_TYPE", false),
   (bytes "CONTENT_TYPE", false), (bytes "HANDLER", false), (bytes "HTTP2", false), (bytes "HTTPS", false),
   (bytes "IPV6", false), (bytes "REQUEST_STATUS", false), (bytes "REQUEST_LOG_ID", false), (bytes "CONN_LOG_ID", false),
   (bytes "CONN_REMOTE_ADDR", false), (bytes "CONTEXT_PREFIX", false), (bytes "CONTEXT_DOCUMENT_ROOT", false)]

/-- `setenv_s` (`slang-app/Common/Service.cpp:140-145`): a parameter that is missing becomes the empty text, but does not
overwrite. -/
def setenvS (env : List Entry) (r : Request) (name : Bytes) : Option (Int × List Entry) :=
  c_setenv env name ((r.param name).getD []) (if (r.param name).isSome then 1 else 0)

/-- `setenv( name, value, 1 )`: with a null pointer as value it is undefined (`none`). -/
def setenvPlain (env : List Entry) (r : Request) (name : Bytes) : Option (Int × List Entry) :=
  match r.param name with
  | none => none
  | some v => c_setenv env name v 1

/-- `Service::prepareEnvironment` (`slang-app/Common/Service.cpp:76-135`), without what it logs. -/
def prepare (r : Request) : List Entry → List (Bytes × Bool) → Option (List Entry)
  | env, [] => some env
  | env, (name, plain) :: rest =>
    match if plain then setenvPlain env r name else setenvS env r name with
    | none => none
    | some (_, env') => prepare r env' rest

/-- What a client gets; `crash`: the process that handles the request behaves in an undefined way. -/
inductive Response where
  | notFound
  | output (t : Bytes)
  | crash
  deriving DecidableEq, Repr

/-- The script: what an entry point prints, and the environment it leaves. -/
abbrev Script := Bytes → List Entry → Bytes × List Entry

/-- `Service::handleRequest` (`slang-app/Common/Service.cpp:36-64`): what the script printed is the answer, also if it ended
with an exception. -/
def handleRequest (script : Script) (entryPoint : Bytes) (env : List Entry) (r : Request) : Response × List Entry :=
  match prepare r env settings with
  | none => (.crash, env)
  | some env' => (.output (script entryPoint env').1, (script entryPoint env').2)

/-- The search for the service (`slang-app/Application/Application.cpp:91-96`). -/
def lookup : List (Bytes × Bytes) → Bytes → Option Bytes
  | [], _ => none
  | (path, entryPoint) :: rest, servicePath => if path = servicePath then some entryPoint else lookup rest servicePath

/-- The child process (`slang-app/Application/Application.cpp:78-107`).  A `std::string` of a null pointer is
undefined. -/
def child (script : Script) (server : Server) (env : List Entry) (r : Request) : Response × List Entry :=
  match r.param (bytes "PATH_INFO") with
  | none => (.crash, env)
  | some path =>
    match if path = [] then server.fallback else lookup server.services path with
    | none => (.notFound, env)
    | some entryPoint => handleRequest script entryPoint env r

/-- `Application::exec` (`slang-app/Application/Application.cpp:69-114`): the child process works on a copy (`fork`), the
parent waits for it.  `fork` is assumed to succeed. -/
def exec (script : Script) (server : Server) (env : List Entry) : List Request → List Response
  | [] => []
  | r :: rs => (child script server env r).1 :: exec script server env rs

end Verif.Web
