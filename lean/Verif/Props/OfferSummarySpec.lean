import Verif.Model.OfferSummary

/-! # Specification: the line about the offers of a content

An offer ended with a peer's accept code, or failed. -/

namespace Verif.Props.OfferSummarySpec
open Verif.OfferSummary (Client)
open Verif.Census (OfferTrace)
open scoped Verif.Provider

/-- The names that are known. -/
def known : List (Client × List Char × List Char) :=
  [(.fluffy, (chars% "fluffy"), (chars% "Fluffy")), (.trin, (chars% "trin"), (chars% "Trin")),
   (.trinExecution, (chars% "trin-execution"), (chars% "TrinExecution")), (.shisui, (chars% "shisui"), (chars% "Shisui")),
   (.ultralight, (chars% "ultralight"), (chars% "Ultralight")), (.samba, (chars% "samba"), (chars% "Samba"))]

/-- The names of the codes. -/
def names : List (AcceptCode × List Char) :=
  [(.accepted, (chars% "Accepted")), (.declined, (chars% "Declined")), (.alreadyStored, (chars% "AlreadyStored")),
   (.notWithinRadius, (chars% "NotWithinRadius")), (.rateLimited, (chars% "RateLimited")),
   (.inboundTransferInProgress, (chars% "InboundTransferInProgress")), (.unspecified, (chars% "Unspecified"))]

/-- `text` is how `client` is printed. -/
def Shown (quote : List Char → List Char) (client : Client) (text : List Char) : Prop :=
  (∃ name, (client, name, text) ∈ known) ∨
    (client = .unknown none ∧ text = (chars% "Unknown(None)")) ∨
    ∃ name, client = .unknown (some name) ∧ text = (chars% "Unknown(Some(") ++ quote name ++ (chars% "))")

/-- The lists have the same length, and `R` holds of their elements at the same places. -/
def Each {A B : Type} (R : A → B → Prop) : List A → List B → Prop
  | [], [] => True
  | a :: as, b :: bs => R a b ∧ Each R as bs
  | _, _ => False

/-- The clients that answered with `code`, in the order of their answers. -/
def answered (offers : List (Client × OfferTrace)) (code : AcceptCode) : List Client :=
  (offers.filter fun o => decide (o.2 = .success code)).map (·.1)

/-- The clients whose offer failed. -/
def failed (offers : List (Client × OfferTrace)) : List Client :=
  (offers.filter fun o => decide (o.2 = .failed)).map (·.1)

/-- `text` names `code` and then exactly the clients that answered with it. -/
def Group (quote : List Char → List Char) (offers : List (Client × OfferTrace)) (code : AcceptCode) (text : List Char) : Prop :=
  ∃ name texts, (code, name) ∈ names ∧ Each (Shown quote) (answered offers code) texts ∧
    text = name ++ (chars% ":[") ++ List.intercalate (chars% ",") texts ++ (chars% "]")

/-- `text` has a group for each code other than "accepted" that some peer answered with, and nothing else. -/
def Reasons (quote : List Char → List Char) (offers : List (Client × OfferTrace)) (text : List Char) : Prop :=
  ∃ codes texts, codes.Nodup ∧ (∀ code, code ∈ codes ↔ code ≠ .accepted ∧ answered offers code ≠ []) ∧
    Each (Group quote offers) codes texts ∧
    text = if codes = [] then (chars% "none") else List.intercalate (chars% " | ") texts

/-- `text` is the line about a content that was offered to all its peers. -/
def Line (quote : List Char → List Char) (key : List Char) (offers : List (Client × OfferTrace)) (text : List Char) : Prop :=
  ∃ why, Reasons quote offers why ∧
    text = (chars% "Successfully offered to ") ++ Nat.toDigits 10 (answered offers .accepted).length ++ (chars% "/")
      ++ Nat.toDigits 10 offers.length ++ (chars% " peers. Content key: ") ++ key ++ (chars% ". Decline reasons: ") ++ why
      ++ (chars% ". Failed: ") ++ Nat.toDigits 10 (failed offers).length ++ (chars% ".")

end Verif.Props.OfferSummarySpec
