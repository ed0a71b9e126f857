import Verif.Model.StateBridge
import Verif.Model.Provider

/-! # What a bridge prints about the offers of a content (`bin/portal-bridge/src/bridge/offer_report.rs`)

Model/StateBridge has the counting (`OfferReport::update`); this file has the line that is printed, and the kind of client
that it names for a peer (`crates/ethportal-api/src/types/client_type.rs`). Strings are lists of characters. Lower case
(`str::to_lowercase`) and the quoted form of a string (`Debug` of `String`) are arbitrary functions, and so is the order in
which a `HashMap` is gone through. Only the level "info" is modelled; with "debug" the lists themselves are printed. -/

namespace Verif.OfferSummary
open Verif.StateBridge (Report)
open Verif.Census (OfferTrace)
open scoped Verif.Provider

/-- `ClientType` (client_type.rs:12-20). -/
inductive Client where
  | fluffy | trin | trinExecution | shisui | ultralight | samba
  | unknown (name : Option (List Char))
deriving DecidableEq, Repr

/-- `From<&str> for ClientType` (client_type.rs:22-35). -/
def Client.ofName (lower : List Char → List Char) (name : List Char) : Client :=
  let value := lower name
  if value = (chars% "fluffy") then .fluffy
  else if value = (chars% "trin") then .trin
  else if value = (chars% "trin-execution") then .trinExecution
  else if value = (chars% "shisui") then .shisui
  else if value = (chars% "ultralight") then .ultralight
  else if value = (chars% "samba") then .samba
  else .unknown (some value)

/-- `ClientInfoRadiusCapabilities::get_client_type` (type_0.rs:61-67): the name in the client information of a ping or pong,
if there is one. -/
def Client.ofInfo (lower : List Char → List Char) : Option (List Char) → Client
  | some name => .ofName lower name
  | none => .unknown none

/-- `Debug` of `ClientType` (derived, client_type.rs:11). -/
def Client.debug (quote : List Char → List Char) : Client → List Char
  | .fluffy => (chars% "Fluffy")
  | .trin => (chars% "Trin")
  | .trinExecution => (chars% "TrinExecution")
  | .shisui => (chars% "Shisui")
  | .ultralight => (chars% "Ultralight")
  | .samba => (chars% "Samba")
  | .unknown none => (chars% "Unknown(None)")
  | .unknown (some name) => (chars% "Unknown(Some(") ++ quote name ++ (chars% "))")

/-- `Display` of `AcceptCode` (accept_code.rs:168-180). -/
def codeText : AcceptCode → List Char
  | .accepted => (chars% "Accepted")
  | .declined => (chars% "Declined")
  | .alreadyStored => (chars% "AlreadyStored")
  | .notWithinRadius => (chars% "NotWithinRadius")
  | .rateLimited => (chars% "RateLimited")
  | .inboundTransferInProgress => (chars% "InboundTransferInProgress")
  | .unspecified => (chars% "Unspecified")

/-- The map of `decline_reason_summary`: the codes with the texts of the clients. -/
abbrev Groups := List (AcceptCode × List (List Char))

/-- `groups.entry(code).or_default().push(text)` (offer_report.rs:117-120). -/
def Groups.push : Groups → AcceptCode → List Char → Groups
  | [], code, text => [(code, [text])]
  | (c, texts) :: gs, code, text =>
    if c = code then (c, texts ++ [text]) :: gs else (c, texts) :: Groups.push gs code text

/-- The loop of `decline_reason_summary` (offer_report.rs:114-121). -/
def groupsOf (quote : List Char → List Char) (declined : List (Client × AcceptCode)) : Groups :=
  declined.foldl (fun gs d => gs.push d.2 (d.1.debug quote)) []

/-- `decline_reason_summary` (offer_report.rs:113-132). -/
def reasons (quote : List Char → List Char) (order : Groups → Groups) (declined : List (Client × AcceptCode)) : List Char :=
  let gs := groupsOf quote declined
  if gs.isEmpty then (chars% "none")
  else List.intercalate (chars% " | ") ((order gs).map fun g => codeText g.1 ++ (chars% ":[") ++ List.intercalate (chars% ",") g.2 ++ (chars% "]"))

/-- The line of `report` (offer_report.rs:102-109). -/
def line (quote : List Char → List Char) (order : Groups → Groups) (key : List Char) (r : Report Client) : List Char :=
  (chars% "Successfully offered to ") ++ Nat.toDigits 10 r.accepted ++ (chars% "/") ++ Nat.toDigits 10 r.total
    ++ (chars% " peers. Content key: ") ++ key ++ (chars% ". Decline reasons: ") ++ reasons quote order r.declined
    ++ (chars% ". Failed: ") ++ Nat.toDigits 10 r.failed.length ++ (chars% ".")

/-- The offers of a content end one after the other; the lines that are printed meanwhile (offer_report.rs:84-86). -/
def printed (quote : List Char → List Char) (order : Groups → Groups) (key : List Char) :
    Report Client → List (Client × OfferTrace) → List (List Char)
  | _, [] => []
  | r, (peer, trace) :: rest =>
    let r' := r.update peer trace
    if r'.printed = r.printed then printed quote order key r' rest
    else line quote order key r' :: printed quote order key r' rest

end Verif.OfferSummary
