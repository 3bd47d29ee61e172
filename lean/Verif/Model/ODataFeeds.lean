import Verif.Model.Paging

/-!
# Pages of the client, feeds and links in JSON and XML

Models `iterpage` of `pyslet/pyslet/odata2/client.py` (cited as *client*), `GenerateEntitySetInJSON` and `GenerateLinkCollJSON` of
`core.py` (*core*), and what `server.py` (*server*) answers for a collection and for links.  Entities and links are what is written
for them; a skip token in a link is read as it was written.
-/

namespace Verif.Paging

variable {E : Type}

/-- The settings of a collection of the client (client:245-248). -/
structure ClientPage where
  top : Option Nat
  skip : Option Nat
  skiptoken : Option Str
  nextSkiptoken : Option Str
deriving DecidableEq

/-- `SetPage` of the client (client:245-248). -/
def ClientPage.set (p : ClientPage) (top skip : Option Nat) (skiptoken : Option Str) : ClientPage :=
  { p with top := top, skip := skip, skiptoken := skiptoken }

/-- `iterpage(setNextPage=True)` of the client (client:250-299), with a server that cuts pages at `topmax`. -/
def clientPage (topmax : Nat) (values : List E) (p : ClientPage) : List E × ClientPage :=
  let r := feed topmax values p.top p.skip p.skiptoken
  let p := { p with nextSkiptoken := r.2 }
  (r.1,
    match p.nextSkiptoken with
    | some t => { p with skiptoken := some t, skip := none }
    | none =>
      match p.skip with
      | some k => { p with skip := some (k + r.1.length) }
      | none => { p with skip := some r.1.length })

/-- Calling `iterpage(setNextPage=True)` of the client again and again. -/
def clientPages (topmax : Nat) (values : List E) : Nat → ClientPage → List (List E)
  | 0, _ => []
  | n + 1, p =>
    let r := clientPage topmax values p
    r.1 :: clientPages topmax values n r.2

/-- What an answer with entities or links says. -/
structure Answer (E : Type) where
  count : Option Nat
  entries : List E
  next : Option Str

/-- `GenerateEntitySetInJSON` (core:2434-2463) and `GenerateLinkCollJSON` (core:2465-2490). -/
def inJson (version : Nat) (inlineCount : Bool) (values : List E) (p : Page) : Answer E :=
  let r := iterpage values false p
  if version < 2 then ⟨none, r.1, none⟩
  else ⟨if inlineCount then some values.length else none, r.1, r.2.nextSkiptoken⟩

/-- A request for a collection or for links that is answered in JSON (server:405-414, 494-499, 614-615, 673-674): `topmax` of the
server is not used. -/
def feedJson (version : Nat) (values : List E) (top skip : Option Nat) (skiptoken : Option Str) (inlineCount : Bool) : Answer E :=
  let start : Page := { top := none, skip := none, topmax := none, skiptoken := none, nextSkiptoken := none }
  inJson version inlineCount values (start.set top skip skiptoken)

/-- A request for links that is answered in XML (server:405-414, 616-621): the settings of the page are not used. -/
def linksXml (values : List E) (_top _skip : Option Nat) (_skiptoken : Option Str) (_inlineCount : Bool) : Answer E :=
  ⟨none, values, none⟩

end Verif.Paging
