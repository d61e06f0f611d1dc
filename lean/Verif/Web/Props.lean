import Verif.Web.Model
import Verif.Libc.Props

/-!
# Properties of the application server (C172, C173)
-/

namespace Verif.Web

open Verif.Libc

theorem setenv_spec {env : List Entry} {m : Bytes → Option Bytes} (h : Shows env m) {n : Bytes} (hn : Name n) (v : Bytes)
    (o : Int) : ∃ env', c_setenv env n v o = some (0, env') ∧
      Shows env' (if o = 0 ∧ m n ≠ none then m else fun k => if k = n then some v else m k) := by
  obtain ⟨env', e1, e2⟩ := setEntry_spec hn v h
  have hbad : ¬ (n = [] ∨ 61 ∈ n) := fun k => k.elim hn.1 hn.2
  unfold c_setenv
  rw [if_neg hbad, h.2 n hn]
  cases hm : m n with
  | none => exact ⟨env', by simp only [e1, Option.map_some], by simpa using e2⟩
  | some w =>
    by_cases ho : o = 0
    · exact ⟨env, by simp only [ho, if_true], by simpa [ho] using h⟩
    · exact ⟨env', by simp only [ho, if_false, e1, Option.map_some], by simpa [ho] using e2⟩

/-- The parameters of a request that a script can read, in alphabetical order. -/
def passed : List String :=
  ["AUTH_TYPE", "CONN_LOG_ID", "CONN_REMOTE_ADDR", "CONTENT_TYPE", "CONTEXT_DOCUMENT_ROOT", "CONTEXT_PREFIX",
   "DOCUMENT_ROOT", "DOCUMENT_URI", "HANDLER", "HTTP2", "HTTPS", "HTTP_ACCEPT", "HTTP_COOKIE", "HTTP_FORWARDED",
   "HTTP_HOST", "HTTP_PROXY_CONNECTION", "HTTP_REFERER", "HTTP_USER_AGENT", "IPV6", "IS_SUBREQ", "LAST_MODIFIED",
   "PATH_INFO", "QUERY_STRING", "REMOTE_ADDR", "REMOTE_HOST", "REMOTE_IDENT", "REMOTE_PORT", "REMOTE_USER",
   "REQUEST_FILENAME", "REQUEST_LOG_ID", "REQUEST_METHOD", "REQUEST_SCHEME", "REQUEST_STATUS", "REQUEST_URI",
   "SCRIPT_FILENAME", "SCRIPT_GROUP", "SCRIPT_USER", "SERVER_ADMIN", "SERVER_NAME", "SERVER_PORT", "SERVER_PROTOCOL",
   "THE_REQUEST"]

/-- What the script of a request sees: the variables the server sets have the values of the request; a parameter the
request does not have is what the server itself was started with, or empty; all other variables are those of the
server. -/
def seen (r : Request) (m : Bytes → Option Bytes) (n : Bytes) : Option Bytes :=
  if n ∈ passed.map bytes then some ((r.param n).getD ((m n).getD [])) else m n

theorem prepare_spec (r : Request) : ∀ (l : List (Bytes × Bool)) (env : List Entry) (m : Bytes → Option Bytes),
    (∀ x ∈ l, Name x.1) → (∀ x ∈ l, x.2 = true → r.param x.1 ≠ none) → Shows env m →
    ∃ env', prepare r env l = some env' ∧
      Shows env' fun n => if n ∈ l.map Prod.fst then some ((r.param n).getD ((m n).getD [])) else m n
  | [], env, m, _, _, h => ⟨env, rfl, by simpa using h⟩
  | (n, plain) :: rest, env, m, hn, hp, h => by
    have hname : Name n := hn (n, plain) (by simp)
    have hstep : ∃ env1, (if plain then setenvPlain env r n else setenvS env r n) = some (0, env1) ∧
        Shows env1 fun k => if k = n then some ((r.param n).getD ((m n).getD [])) else m k := by
      cases hv : r.param n with
      | none =>
        have hpl : plain = false := by
          cases plain with
          | false => rfl
          | true => exact absurd hv (hp (n, true) (by simp) rfl)
        obtain ⟨env1, e1, e2⟩ := setenv_spec h hname [] 0
        refine ⟨env1, by simp [hpl, setenvS, hv, e1], ?_⟩
        cases hm : m n with
        | none => rw [if_neg (by simp [hm])] at e2; simpa using e2
        | some w =>
          rw [if_pos (by simp [hm])] at e2
          have : (fun k => if k = n then some ((none : Option Bytes).getD ((some w).getD [])) else m k) = m := by
            funext k
            by_cases hk : k = n
            · simp [hk, hm]
            · simp [hk]
          rw [this]; exact e2
      | some v =>
        obtain ⟨env1, e1, e2⟩ := setenv_spec h hname v 1
        refine ⟨env1, ?_, by simpa using e2⟩
        cases plain <;> simp [setenvS, setenvPlain, hv, e1]
    obtain ⟨env1, e1, e2⟩ := hstep
    obtain ⟨env', f1, f2⟩ := prepare_spec r rest env1 _ (fun x hx => hn x (by simp [hx]))
      (fun x hx => hp x (by simp [hx])) e2
    refine ⟨env', by rw [prepare, e1]; exact f1, ?_⟩
    have hfun : (fun k => if k ∈ List.map Prod.fst rest then
          some ((r.param k).getD ((if k = n then some ((r.param n).getD ((m n).getD [])) else m k).getD []))
        else (if k = n then some ((r.param n).getD ((m n).getD [])) else m k)) =
        fun k => if k ∈ List.map Prod.fst ((n, plain) :: rest) then some ((r.param k).getD ((m k).getD [])) else m k := by
      funext k
      by_cases hk : k = n
      · subst hk
        by_cases hin : k ∈ List.map Prod.fst rest
        · cases r.param k <;> simp [hin]
        · simp [hin]
      · simp [hk]
    rw [← hfun]
    exact f2

theorem passed_iff (n : Bytes) : n ∈ passed.map bytes ↔ n ∈ settings.map Prod.fst := by
  have h1 : ∀ n ∈ passed.map bytes, n ∈ settings.map Prod.fst := by decide +kernel
  have h2 : ∀ n ∈ settings.map Prod.fst, n ∈ passed.map bytes := by decide +kernel
  exact ⟨h1 n, h2 n⟩

theorem seen_eq (r : Request) (m : Bytes → Option Bytes) :
    seen r m = fun n => if n ∈ settings.map Prod.fst then some ((r.param n).getD ((m n).getD [])) else m n := by
  funext n
  simp only [seen, passed_iff]

theorem settings_names : ∀ x ∈ settings, Name x.1 := by
  unfold Name; decide +kernel

theorem lookup_of_mem : ∀ {l : List (Bytes × Bytes)} {p e : Bytes}, (l.map Prod.fst).Nodup → (p, e) ∈ l → lookup l p = some e
  | (q, f) :: l, p, e, hd, h => by
    rw [List.map_cons, List.nodup_cons] at hd
    rw [lookup]
    rcases List.mem_cons.1 h with h | h
    · cases h; simp
    · have : q ≠ p := fun k => hd.1 (by rw [k]; exact List.mem_map.2 ⟨(p, e), h, rfl⟩)
      rw [if_neg this]
      exact lookup_of_mem hd.2 h

theorem lookup_none : ∀ {l : List (Bytes × Bytes)} {p : Bytes}, (∀ e, (p, e) ∉ l) → lookup l p = none
  | [], _, _ => rfl
  | (q, f) :: l, p, h => by
    have : q ≠ p := fun k => h f (by simp [k])
    rw [lookup, if_neg this]
    exact lookup_none fun e he => h e (by simp [he])

/-- The entry point a request is for: the one configured for its path, the default one for the empty path. -/
def For (server : Server) (path entryPoint : Bytes) : Prop :=
  (path = [] ∧ server.fallback = some entryPoint) ∨ (path ≠ [] ∧ (path, entryPoint) ∈ server.services)

theorem exec_map (script : Script) (server : Server) (env : List Entry) (rs : List Request) :
    exec script server env rs = rs.map fun r => (child script server env r).1 := by
  induction rs with
  | nil => rfl
  | cons r rs ih => rw [exec, ih]; rfl

/-- **C172**.  Whatever requests came before, a request is answered with what the entry point of its path prints, run in
an environment that shows the parameters of this request; a request for a path that is not configured is answered
with "not found".  `_partial`: the request has a path, method, URI and query string. -/
theorem requests_are_answered_partial (script : Script) (server : Server) (env : List Entry) (m : Bytes → Option Bytes)
    (h : Shows env m) (hd : (server.services.map Prod.fst).Nodup) (earlier later : List Request) (r : Request)
    (path : Bytes) (hpath : r.param (bytes "PATH_INFO") = some path)
    (h1 : r.param (bytes "REQUEST_METHOD") ≠ none) (h2 : r.param (bytes "REQUEST_URI") ≠ none)
    (h3 : r.param (bytes "QUERY_STRING") ≠ none) :
    (∀ entryPoint, For server path entryPoint → ∃ env', Shows env' (seen r m) ∧
      (exec script server env (earlier ++ r :: later))[earlier.length]? = some (.output (script entryPoint env').1)) ∧
    ((∀ entryPoint, ¬ For server path entryPoint) →
      (exec script server env (earlier ++ r :: later))[earlier.length]? = some .notFound) := by
  have hget : (exec script server env (earlier ++ r :: later))[earlier.length]? = some (child script server env r).1 := by
    rw [exec_map]; simp
  rw [hget]
  have hplain : ∀ x ∈ settings, x.2 = true → r.param x.1 ≠ none := by
    have hall : ∀ x ∈ settings, x.2 = true →
        x.1 = bytes "REQUEST_METHOD" ∨ x.1 = bytes "REQUEST_URI" ∨ x.1 = bytes "QUERY_STRING" := by decide +kernel
    intro x hx hx2
    rcases hall x hx hx2 with e | e | e <;> rw [e] <;> assumption
  obtain ⟨env', e1, e2⟩ := prepare_spec r settings env m settings_names hplain h
  rw [← seen_eq] at e2
  constructor
  · intro entryPoint hf
    refine ⟨env', e2, ?_⟩
    have : (if path = [] then server.fallback else lookup server.services path) = some entryPoint := by
      rcases hf with ⟨hp, hf⟩ | ⟨hp, hf⟩
      · rw [if_pos hp, hf]
      · rw [if_neg hp, lookup_of_mem hd hf]
    simp only [child, hpath, this, handleRequest, e1]
  · intro hf
    have : (if path = [] then server.fallback else lookup server.services path) = none := by
      by_cases hp : path = []
      · rw [if_pos hp]
        cases hfb : server.fallback with
        | none => rfl
        | some e => exact absurd (.inl ⟨hp, hfb⟩) (hf e)
      · rw [if_neg hp, lookup_none fun e he => hf e (.inr ⟨hp, he⟩)]
    simp only [child, hpath, this]

/-- **Refuted** (C172): a request without a path, or for a service without method, URI or query string, is not answered:
its process ends in an undefined way. -/
theorem incomplete_request_refuted (script : Script) (server : Server) (env : List Entry) (m : Bytes → Option Bytes)
    (h : Shows env m) (r : Request)
    (hr : r.param (bytes "PATH_INFO") = none ∨
      ∃ path entryPoint, r.param (bytes "PATH_INFO") = some path ∧ For server path entryPoint ∧
        (server.services.map Prod.fst).Nodup ∧ r.param (bytes "QUERY_STRING") = none) :
    exec script server env [r] = [.crash] := by
  have hnone : ∀ (l : List (Bytes × Bool)) (env : List Entry) (m : Bytes → Option Bytes), Shows env m →
      (∀ x ∈ l, Name x.1) → (∃ x ∈ l, x.2 = true ∧ r.param x.1 = none) → prepare r env l = none := by
    intro l
    induction l with
    | nil => intro _ _ _ _ ⟨x, hx, _⟩; cases hx
    | cons y ys ih =>
      intro env m h hn ⟨x, hx, hx2, hx3⟩
      obtain ⟨n, plain⟩ := y
      by_cases hy : plain = true ∧ r.param n = none
      · simp [prepare, hy.1, setenvPlain, hy.2]
      · have hstep : ∃ env1 m1, (if plain then setenvPlain env r n else setenvS env r n) = some (0, env1) ∧ Shows env1 m1 := by
          cases plain with
          | false =>
            obtain ⟨env1, e1, e2⟩ := setenv_spec h (hn (n, false) (by simp)) ((r.param n).getD []) (if (r.param n).isSome then 1 else 0)
            exact ⟨env1, _, by simp only [Bool.false_eq_true, if_false, setenvS]; exact e1, e2⟩
          | true =>
            cases hv : r.param n with
            | none => exact absurd ⟨rfl, hv⟩ hy
            | some v =>
              obtain ⟨env1, e1, e2⟩ := setenv_spec h (hn (n, true) (by simp)) v 1
              exact ⟨env1, _, by simp only [if_true, setenvPlain, hv]; exact e1, e2⟩
        obtain ⟨env1, m1, e1, e2⟩ := hstep
        rw [prepare, e1]
        refine ih env1 m1 e2 (fun x hx => hn x (by simp [hx])) ⟨x, ?_, hx2, hx3⟩
        rcases List.mem_cons.1 hx with e | e
        · exact absurd ⟨by rw [← hx2, e], by rw [← hx3, e]⟩ hy
        · exact e
  rcases hr with hr | ⟨path, entryPoint, hp, hf, hd, hq⟩
  · simp only [exec, child, hr]
  · have : (if path = [] then server.fallback else lookup server.services path) = some entryPoint := by
      rcases hf with ⟨hp, hf⟩ | ⟨hp, hf⟩
      · rw [if_pos hp, hf]
      · rw [if_neg hp, lookup_of_mem hd hf]
    have hprep := hnone settings env m h settings_names
      ⟨(bytes "QUERY_STRING", true), by decide +kernel, rfl, hq⟩
    simp only [exec, child, hp, this, handleRequest, hprep]

/-- **C173**: what a script sees of a request.  A parameter of the request that the server passes on has its value; a
parameter the request does not have reads as the empty text, provided the server was started without such a variable. -/
theorem script_sees_request_partial (r : Request) (m : Bytes → Option Bytes) (n : Bytes) (hn : n ∈ passed.map bytes)
    (env' : List Entry) (h : Shows env' (seen r m)) (hz : 0 ∉ n) (hm : m n = none) :
    (call env' (.getenv n)).1 = .text ((r.param n).getD []) := by
  obtain ⟨x, hx, rfl⟩ := List.mem_map.1 ((passed_iff n).1 hn)
  have := settings_names x hx
  simp only [call, cstr_id hz, h.2 _ this, seen, hn, if_true, hm, Option.getD_none]

/-- **Refuted** (C173): if the server was started with a variable of that name, a script of a request without this
parameter sees the server's value. -/
theorem missing_parameter_refuted (r : Request) (m : Bytes → Option Bytes) (n v : Bytes) (hn : n ∈ passed.map bytes)
    (env' : List Entry) (h : Shows env' (seen r m)) (hz : 0 ∉ n) (hm : m n = some v) (hr : r.param n = none) :
    (call env' (.getenv n)).1 = .text v := by
  obtain ⟨x, hx, rfl⟩ := List.mem_map.1 ((passed_iff n).1 hn)
  have := settings_names x hx
  simp only [call, cstr_id hz, h.2 _ this, seen, hn, if_true, hm, hr, Option.getD_none, Option.getD_some]

/-! ## An example: two services, three requests -/

/-- A script that prints the name of the entry point and the user's cookie. -/
def demoScript : Script := fun e env =>
  (e ++ (match c_getenv env (bytes "HTTP_COOKIE") with | some (some v) => v | _ => []), [])

/-- A server with two services. -/
def demoServer : Server := ⟨[(bytes "/a", bytes "first"), (bytes "/b", bytes "second")], none⟩

/-- A request with a path and perhaps a cookie. -/
def demoRequest (path : String) (cookie : Option Bytes) : Request :=
  ⟨fun n => if n = bytes "PATH_INFO" then some (bytes path)
    else if n = bytes "HTTP_COOKIE" then cookie
    else if n = bytes "REQUEST_METHOD" ∨ n = bytes "REQUEST_URI" ∨ n = bytes "QUERY_STRING" then some [] else none⟩

example : exec demoScript demoServer [] [demoRequest "/b" (some (bytes "=me")), demoRequest "/a" none, demoRequest "/c" none,
    demoRequest "" none, ⟨fun _ => none⟩] =
    [.output (bytes "second=me"), .output (bytes "first"), .notFound, .notFound, .crash] := by decide +kernel

example : exec demoScript demoServer [.text (bytes "HTTP_COOKIE=secret")] [demoRequest "/a" none] =
    [.output (bytes "firstsecret")] := by decide +kernel

example : (demoServer.services.map Prod.fst).Nodup ∧ For demoServer (bytes "/b") (bytes "second") ∧
    bytes "HTTP_COOKIE" ∈ passed.map bytes ∧ (0 : Nat) ∉ bytes "HTTP_COOKIE" := by
  refine ⟨by decide +kernel, .inr ⟨by decide +kernel, by decide +kernel⟩, by decide +kernel, by decide +kernel⟩

end Verif.Web
