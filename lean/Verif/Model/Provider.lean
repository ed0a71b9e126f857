import Verif.Model.E2store
import Verif.Model.HeadGen
import Verif.Model.Hex

/-!
# The clients of execution and consensus nodes (`crates/ethereum-rpc-client/src/{http_client,execution}.rs`,
`crates/ethereum-rpc-client/src/consensus/{mod,rpc_types,event}.rs`)

Every call works on the log of what was done so far (requests that were sent and pauses) and returns it with what it added.
The world answers each request with anything, which may depend on the whole log: all outages, all orders of answers and
providers that lie are covered. Texts are lists of characters. JSON, SSZ and the parsers of blocks and receipts are
parameters. Of a URL only host, path and query are kept; the TLS layer, redirects and the random length of the pauses
between attempts are left out.
-/

namespace Verif.Provider

/-- A string literal as the list of its characters. -/
scoped macro "chars% " s:str : term => do
  let cs ← s.getString.toList.mapM fun c => `($(Lean.Syntax.mkCharLit c))
  `([$(cs.toArray),*])

open Verif.E2store (Res)

/-- A `Url`: no host is possible (`data:…`). -/
structure Url where
  host : Option (List Char)
  path : List Char
  query : Option (List Char)
deriving DecidableEq, Repr

/-- The part of a reference before the first `?`, and the part after it. -/
def splitQuery : List Char → List Char × Option (List Char)
  | [] => ([], none)
  | c :: cs => if c = '?' then ([], some cs) else let r := splitQuery cs; (c :: r.1, r.2)

/-- `Url::join` for the two kinds of references in use: the empty one, and one that starts with a single `/`
(http_client.rs:76-84). -/
def Url.join (u : Url) (ref : List Char) : Url :=
  match ref with
  | [] => u
  | ref => let r := splitQuery ref; { u with path := r.1, query := r.2 }

/-- A JSON-RPC parameter. -/
inductive Param where
  | text (s : List Char)
  | flag (b : Bool)
deriving DecidableEq, Repr

/-- `JsonRequest`; ids are `u32`s. -/
structure Call where
  method : List Char
  params : List Param
  id : Nat
deriving DecidableEq, Repr

/-- The body of a request: none (GET), one call or several (POST). -/
inductive Body where
  | get
  | one (c : Call)
  | batch (cs : List Call)
deriving DecidableEq, Repr

/-- A name and a value of a header. -/
abbrev Header := List Char × List Char

/-- A request as it leaves; `timeout` is in seconds. -/
structure Request where
  url : Url
  headers : List Header
  timeout : Nat
  body : Body
deriving DecidableEq, Repr

/-- What is done: a request is sent, or time passes (a random time between two attempts, or the given seconds). -/
inductive Act where
  | send (r : Request)
  | backoff
  | pause (seconds : Nat)
deriving DecidableEq, Repr

/-- A response. The content type is `none` when it is missing or not text; the body is `none` when reading it fails. The
status is not looked at. -/
structure Response where
  contentType : Option (List Char)
  body : Option Bytes
deriving DecidableEq, Repr

/-- What comes of one request. `retry`: `reqwest_retry` takes it for a temporary failure (no connection, a timeout, a status
of 5xx, 408 or 429). -/
structure Answer where
  retry : Bool
  response : Option Response
deriving DecidableEq, Repr

/-- The world: what comes of the request at the end of the log. -/
abbrev World := List Act → Answer

/-- The environment variables of `get_authorization_headers`. -/
structure Env where
  clientId : Option (List Char)
  clientSecret : Option (List Char)
deriving DecidableEq, Repr

/-- `JSON_CONTENT_TYPE`, `SSZ_CONTENT_TYPE`, `ACCEPT_PRIORITY`, `JSON_ACCEPT_PRIORITY` (http_client.rs:13-16). -/
def jsonType : List Char := (chars% "application/json")
def sszType : List Char := (chars% "application/octet-stream")
def acceptPriority : List Char := (chars% "application/octet-stream;q=1.0,application/json;q=0.9")
def jsonAcceptPriority : List Char := (chars% "application/json;q=1")

def contentTypeName : List Char := (chars% "content-type")
def acceptName : List Char := (chars% "accept")
def idName : List Char := (chars% "cf-access-client-id")
def secretName : List Char := (chars% "cf-access-client-secret")

/-- `str::contains`. -/
def contains : List Char → List Char → Bool
  | [], pat => pat.isEmpty
  | c :: cs, pat => pat.isPrefixOf (c :: cs) || contains cs pat

/-- `HeaderValue::from_str`: visible characters, spaces and tabs. -/
def headerValue (s : List Char) : Option (List Char) :=
  if s.all fun c => (32 ≤ c.toNat && c.toNat < 127) || c == '\t' then some s else none

/-- `get_authorization_headers` (http_client.rs:91-119). -/
def authHeaders (env : Env) (u : Url) : Option (List Header) :=
  match u.host with
  | none => none
  | some host =>
    if contains host (chars% "pandaops.io") then
      match headerValue (env.clientId.getD (chars% "null")), headerValue (env.clientSecret.getD (chars% "null")) with
      | some i, some s => some [(idName, i), (secretName, s)]
      | _, _ => none
    else some []

/-- `ContentType` (http_client.rs:18-22). -/
inductive Kind where
  | json
  | ssz
deriving DecidableEq, Repr

/-- `ClientWithBaseUrl` (http_client.rs:24-28): the address, the headers of every request and the default timeout. -/
structure Client where
  base : Url
  headers : List Header
  timeout : Nat
deriving DecidableEq, Repr

/-- `ClientWithBaseUrl::new` (http_client.rs:31-66). -/
def newClient (env : Env) (u : Url) (timeout : Nat) (kind : Kind) : Option Client :=
  (authHeaders env u).map fun auth =>
    ⟨u, (match kind with
      | .json => [(contentTypeName, jsonType)]
      | .ssz => [(contentTypeName, sszType), (acceptName, acceptPriority)]) ++ auth, timeout⟩

/-- The retry middleware (http_client.rs:53-58): the same request up to `left` more times while the failure looks
temporary. -/
def attempts (w : World) (r : Request) : (left : Nat) → List Act → List Act × Answer
  | 0, log => (log ++ [.send r], w (log ++ [.send r]))
  | k + 1, log =>
    if (w (log ++ [.send r])).retry then attempts w r k (log ++ [.send r] ++ [.backoff])
    else (log ++ [.send r], w (log ++ [.send r]))

/-- `client.execute(request)` and `request.send()` (http_client.rs:86-88) with `build_with_max_retries(3)`. -/
def execute (w : World) (r : Request) (log : List Act) : List Act × Option Response :=
  let x := attempts w r 3 log
  (x.1, x.2.response)

/-! ## Execution nodes -/

/-- The shape of a JSON value: an object with or without a member `result`, null, or anything else. -/
inductive Shape (V : Type) where
  | object (result : Option V)
  | null
  | other

/-- The JSON library and the parsers of what is in `result`: receipts, a block with its number, and a block that matches
its own header. -/
structure Lib (V Rc Blk : Type) where
  parse : Bytes → Option V
  parseList : Bytes → Option (List V)
  shape : V → Shape V
  receipts : V → Option Rc
  block : V → Option Blk
  headNumber : V → Option Nat
  number : Blk → Nat
  paris : Nat → Bool

variable {V Rc Blk : Type}

/-- `ExecutionApi` (execution.rs:31-36). -/
structure Exec where
  primary : Url
  fallback : Url
  timeout : Nat
deriving DecidableEq, Repr

/-- `FALLBACK_RETRY_AFTER` and `GET_RECEIPTS_RETRY_AFTER`, in seconds (constants.rs:8, 28). -/
def fallbackRetryAfter : Nat := 5
def receiptsRetryAfter : Nat := 1

/-- `BATCH_LIMIT` (execution.rs:27). -/
def batchLimit : Nat := 10

/-- The POST request of `send_request` and `send_batch_request` (execution.rs:235-240, 277-281). -/
def Client.post (c : Client) (b : Body) : Request := ⟨c.base.join [], c.headers, c.timeout, b⟩

/-- `send_request` (execution.rs:273-296) and `send_batch_request` (230-246) with their parsers. -/
def sendTo {α : Type} (w : World) (parse : Bytes → Option α) (c : Client) (b : Body) (log : List Act) :
    List Act × Option α :=
  let x := execute w (c.post b) log
  (x.1, (x.2.bind (·.body)).bind parse)

/-- `try_request` (execution.rs:248-271) and `try_batch_request` (193-228). -/
def Exec.try {α : Type} (x : Exec) (env : Env) (w : World) (parse : Bytes → Option α) (b : Body) (log : List Act) :
    List Act × Option α :=
  match newClient env x.primary x.timeout .json with
  | none => (log, none)
  | some c =>
    match sendTo w parse c b log with
    | (log, some v) => (log, some v)
    | (log, none) =>
      match newClient env x.fallback x.timeout .json with
      | none => (log ++ [.pause fallbackRetryAfter], none)
      | some c => sendTo w parse c b (log ++ [.pause fallbackRetryAfter])

/-- A number in upper-case hexadecimal digits. -/
def hexDigits (n : Nat) : List Char :=
  if n < 16 then [Hex.digitUpper n] else hexDigits (n / 16) ++ [Hex.digitUpper (n % 16)]

/-- `format!("0x{height:01X}")`. -/
def quantity (n : Nat) : List Char := '0' :: 'x' :: hexDigits n

def blockMethod : List Char := (chars% "eth_getBlockByNumber")
def receiptsMethod : List Char := (chars% "eth_getBlockReceipts")

/-- `response.get("result")`. -/
def Lib.member (lib : Lib V Rc Blk) (v : V) : Option V :=
  match lib.shape v with
  | .object r => r
  | _ => none

/-- Whether a value is null. -/
def Lib.isNull (lib : Lib V Rc Blk) (v : V) : Bool :=
  match lib.shape v with
  | .null => true
  | _ => false

/-- `Receipts::deserialize` (execution/receipts.rs:66-77) of a whole answer: `obj["result"]` aborts when the answer is neither
an object nor null; a missing member counts as null, which is no list. -/
def Lib.receiptsOf (lib : Lib V Rc Blk) (v : V) : Res Rc :=
  match lib.shape v with
  | .object (some r) => match lib.receipts r with | some rc => .ok rc | none => .err
  | .object none => .err
  | .null => .err
  | .other => .panic

/-- The request of `get_block` (execution.rs:65-67). -/
def blockCall (height : Nat) : Call := ⟨blockMethod, [.text (quantity height), .flag true], height % 2 ^ 32⟩

/-- `get_block` (execution.rs:63-87). -/
def getBlock (lib : Lib V Rc Blk) (x : Exec) (env : Env) (w : World) (height : Nat) (log : List Act) :
    List Act × Option Blk :=
  let r := x.try env w lib.parse (.one (blockCall height)) log
  (r.1, ((r.2.bind lib.member).bind lib.block).filter fun b => lib.paris (lib.number b))

/-- `get_block_body` (execution.rs:90-99): the hash of the header and the body, when they belong together. -/
def getBlockBody {Hash Bd : Type} (hash : Blk → Hash) (body : Blk → Bd) (fits : Blk → Bool) (b : Blk) : Option (Hash × Bd) :=
  if fits b then some (hash b, body b) else none

/-- The request of `get_receipts` (execution.rs:108-110). -/
def receiptsCall (number id : Nat) : Call := ⟨receiptsMethod, [.text (quantity number)], id⟩

/-- The loop of `get_receipts` (execution.rs:111-128). -/
def receiptsLoop (lib : Lib V Rc Blk) (x : Exec) (env : Env) (w : World) (number : Nat) :
    (rounds : Nat) → List Act → List Act × Res Rc
  | 0, log => (log, .err)
  | k + 1, log =>
    match x.try env w lib.parse (.one (receiptsCall number 1)) log with
    | (log, none) => (log, .err)
    | (log, some v) =>
      match lib.member v with
      | none => (log, .err)
      | some r =>
        if lib.isNull r then receiptsLoop lib x env w number k (log ++ [.pause receiptsRetryAfter])
        else (log, lib.receiptsOf v)

/-- `get_receipts` (execution.rs:107-129). -/
def getReceipts (lib : Lib V Rc Blk) (x : Exec) (env : Env) (w : World) (number : Nat) (log : List Act) :
    List Act × Res Rc :=
  receiptsLoop lib x env w number 5 log

/-- The calls of `get_receipts_range` (execution.rs:138-147) with the numbers they are about. -/
def rangeCalls (numbers : List Nat) : List (Nat × Call) :=
  numbers.zipIdx.map fun p => (p.1, receiptsCall p.1 (p.2 % 2 ^ 32))

/-- `HashMap::insert`, for a map that is kept as a list. -/
def put {α : Type} (m : List (Nat × α)) (k : Nat) (v : α) : List (Nat × α) := (k, v) :: m.filter fun e => e.1 != k

/-- The answers of a batch are paired with the numbers by position (execution.rs:161-166). -/
def pairUp (lib : Lib V Rc Blk) : List V → List Nat → List (Nat × Rc) → Res (List (Nat × Rc))
  | v :: vs, n :: ns, m =>
    match lib.receiptsOf v with
    | .ok rc => pairUp lib vs ns (put m n rc)
    | .err => .err
    | .panic => .panic
  | _, _, m => .ok m

/-- The loop over the batches of `get_receipts_range` (execution.rs:152-173); `fuel` bounds their number. -/
def rangeLoop (lib : Lib V Rc Blk) (x : Exec) (env : Env) (w : World) :
    (fuel : Nat) → List (Nat × Call) → List (Nat × Rc) → List Act → List Act × Res (List (Nat × Rc))
  | 0, _, m, log => (log, .ok m)
  | k + 1, calls, m, log =>
    if calls.isEmpty then (log, .ok m)
    else
      match x.try env w lib.parseList (.batch ((calls.take batchLimit).map (·.2))) log with
      | (log, none) => (log, .err)
      | (log, some vs) =>
        match pairUp lib vs ((calls.take batchLimit).map (·.1)) m with
        | .ok m => rangeLoop lib x env w k (calls.drop batchLimit) m log
        | .err => (log, .err)
        | .panic => (log, .panic)

/-- `get_receipts_range` (execution.rs:131-176). -/
def getReceiptsRange (lib : Lib V Rc Blk) (x : Exec) (env : Env) (w : World) (numbers : List Nat) (log : List Act) :
    List Act × Res (List (Nat × Rc)) :=
  rangeLoop lib x env w numbers.length (rangeCalls numbers) [] log

/-- `get_latest_block_number` (execution.rs:178-190). -/
def getLatest (lib : Lib V Rc Blk) (x : Exec) (env : Env) (w : World) (log : List Act) : List Act × Option Nat :=
  let r := x.try env w lib.parse (.one ⟨blockMethod, [.text (chars% "latest"), .flag false], 1⟩) log
  (r.1, (r.2.bind lib.member).bind lib.headNumber)

/-- `ExecutionApi::new` (execution.rs:39-60) with `check_provider` (300-327): one request to the primary provider, whose answer
makes no difference. -/
def newExec (env : Env) (w : World) (primary fallback : Url) (timeout : Nat) (log : List Act) : List Act × Option Exec :=
  match newClient env primary timeout .json with
  | none => (log, none)
  | some c => ((execute w (c.post (.one ⟨(chars% "web3_clientVersion"), [], 1⟩)) log).1, some ⟨primary, fallback, timeout⟩)

/-! ## Consensus nodes -/

/-- A block id or a state id. -/
inductive Ident where
  | head
  | genesis
  | finalized
  | slot (n : Nat)
  | root (r : Bytes)
deriving DecidableEq, Repr

/-- The text of an id (a root is shown in lower-case hexadecimal). -/
def Ident.text : Ident → List Char
  | .head => (chars% "head")
  | .genesis => (chars% "genesis")
  | .finalized => (chars% "finalized")
  | .slot n => HeadGen.decimal n
  | .root r => Hex.hexEncode r

/-- The questions of `ConsensusApi`. -/
inductive Question where
  | finalizedStateRoot
  | bootstrap (root : Bytes)
  | blockRoot (id : Ident)
  | updates (start count : Nat)
  | optimisticUpdate
  | finalityUpdate
  | version
  | state (id : Ident)
  | block (id : Ident)
deriving DecidableEq, Repr

/-- The endpoints (consensus/mod.rs:74-164). -/
def Question.endpoint : Question → List Char
  | .finalizedStateRoot => (chars% "/eth/v1/beacon/states/finalized/root")
  | .bootstrap root => (chars% "/eth/v1/beacon/light_client/bootstrap/") ++ Hex.hexEncode root
  | .blockRoot id => (chars% "/eth/v1/beacon/blocks/") ++ id.text ++ (chars% "/root")
  | .updates start count => (chars% "/eth/v1/beacon/light_client/updates?start_period=") ++ HeadGen.decimal start ++
      (chars% "&count=") ++ HeadGen.decimal count
  | .optimisticUpdate => (chars% "/eth/v1/beacon/light_client/optimistic_update")
  | .finalityUpdate => (chars% "/eth/v1/beacon/light_client/finality_update")
  | .version => (chars% "/eth/v1/node/version")
  | .state id => (chars% "/eth/v2/debug/beacon/states/") ++ id.text
  | .block id => (chars% "/eth/v2/beacon/blocks/") ++ id.text

/-- The timeout when it is not that of the client (consensus/mod.rs:147-149, 160-162; consensus/constants.rs:4). -/
def Question.timeout : Question → Option Nat
  | .state _ => some 60
  | .block _ => some 60
  | _ => none

/-- Whether the answer is a list. -/
def Question.isList : Question → Bool
  | .updates _ _ => true
  | _ => false

/-- `ConsensusApi` (consensus/mod.rs:41-44). -/
structure Cons where
  primary : Client
  fallback : Client
deriving DecidableEq, Repr

/-- Headers given for one request replace those of the client. -/
def overrideHeaders (hs : List Header) : List Header :=
  [(contentTypeName, jsonType), (acceptName, jsonAcceptPriority)] ++
    hs.filter fun h => h.1 != contentTypeName && h.1 != acceptName

/-- The GET request of `base_request` (consensus/mod.rs:347-361). -/
def Client.ask (c : Client) (q : Question) : Request :=
  ⟨c.base.join q.endpoint, if q.isList then overrideHeaders c.headers else c.headers, q.timeout.getD c.timeout, .get⟩

/-- How answers are decoded, from SSZ and from JSON (`VersionedDataResult::response`, rpc_types.rs:28-49: JSON that does not
have the expected form is an error). -/
structure Codec (T : Type) where
  ssz : Bytes → Option T
  json : Bytes → Option T

variable {T : Type}

/-- `request_no_fallback` (consensus/mod.rs:377-409) and `request_list_no_fallback` (411-433) with the end of `base_request`
(362-374). A list is only read from JSON. The header `Eth-Consensus-Version` is left out: it makes no difference unless it
is not text. -/
def decode (codec : Codec T) (isList : Bool) (r : Response) : Option T :=
  match r.contentType with
  | none => none
  | some t =>
    if t = sszType then if isList then none else r.body.bind codec.ssz
    else if t = jsonType then r.body.bind codec.json
    else none

/-- One provider is asked. -/
def askOne (w : World) (codec : Codec T) (c : Client) (q : Question) (log : List Act) : List Act × Option T :=
  let x := execute w (c.ask q) log
  (x.1, x.2.bind (decode codec q.isList))

/-- `request` (consensus/mod.rs:295-315) and `request_list` (321-339). -/
def Cons.ask (x : Cons) (w : World) (codec : Codec T) (q : Question) (log : List Act) : List Act × Option T :=
  match askOne w codec x.primary q log with
  | (log, some v) => (log, some v)
  | (log, none) => askOne w codec x.fallback q log

/-- `ConsensusApi::new` (consensus/mod.rs:47-72) with `check_provider` (437-442): both providers are asked for their
version, and the answers make no difference. -/
def newCons (env : Env) (w : World) (primary fallback : Url) (timeout : Nat) (log : List Act) : List Act × Option Cons :=
  match newClient env primary timeout .ssz with
  | none => (log, none)
  | some p =>
    let log := (execute w (p.ask .version) log).1
    match newClient env fallback timeout .ssz with
    | none => (log, none)
    | some f => ((execute w (f.ask .version) log).1, some ⟨p, f⟩)

/-! ## Events -/

/-- What the stream of a node brings (`SSE`, or an error). -/
inductive Sse where
  | event (type data : List Char)
  | connected
  | comment
  | error
deriving DecidableEq, Repr

/-- The topics, with the names of `query_value`. -/
inductive Topic where
  | chainReorg
  | head
  | lightClientOptimisticUpdate
  | finalizedCheckpoint
deriving DecidableEq, Repr

def Topic.name : Topic → List Char
  | .chainReorg => (chars% "chain_reorg")
  | .head => (chars% "head")
  | .lightClientOptimisticUpdate => (chars% "light_client_optimistic_update")
  | .finalizedCheckpoint => (chars% "finalized_checkpoint")

/-- `BeaconEvent::try_from` (consensus/event.rs:25-47); `parse` reads the data of an event of the topic. -/
def beaconEvent {E : Type} (parse : Topic → List Char → Option E) (type data : List Char) : Option E :=
  if type = Topic.chainReorg.name then parse .chainReorg data
  else if type = Topic.head.name then parse .head data
  else if type = Topic.lightClientOptimisticUpdate.name then parse .lightClientOptimisticUpdate data
  else if type = Topic.finalizedCheckpoint.name then parse .finalizedCheckpoint data
  else none

/-- The stream of `get_events_stream` (consensus/mod.rs:243-292). -/
def events {E : Type} (parse : Topic → List Char → Option E) (stream : List Sse) : List E :=
  stream.filterMap fun
    | .event type data => beaconEvent parse type data
    | _ => none

/-- Texts with commas between them. -/
def commas : List (List Char) → List Char
  | [] => []
  | [t] => t
  | t :: ts => t ++ ',' :: commas ts

/-- The address of the stream (consensus/mod.rs:248-256): only the primary provider is asked. -/
def eventsUrl (x : Cons) (topics : List Topic) : Url :=
  x.primary.base.join ((chars% "/eth/v1/events?topics=") ++ commas (topics.map Topic.name))

end Verif.Provider
