import Verif.Model.Processors

/-!
# Processors when reading: what is expected
-/

namespace Pyzim
variable {σ D : Type}

/-- A processor that does not raise, turns each entry into another one, and leaves clusters as they are. What it remembers is
arbitrary. -/
structure Processor.Turns (p : Processor σ D) (f : Entry → Entry) : Prop where
  beforeEntry : ∀ location s, (p.beforeEntry location s).1 = .ok ()
  afterEntry : ∀ location e s, (p.afterEntry location e s).1 = .ok (f e)
  beforeCluster : ∀ location s, (p.beforeCluster location s).1 = .ok ()
  afterCluster : ∀ c s, (p.afterCluster c s).1 = .ok c

/-- A processor that only observes. -/
def Processor.Observes (p : Processor σ D) : Prop := p.Turns id

/-- what several processors, one after the other, turn an entry into -/
def turnedBy (fs : List (Entry → Entry)) (e : Entry) : Entry := fs.foldl (fun e f => f e) e

/-- A processor that does not raise and turns each cluster into another one. -/
structure Processor.TurnsClusters (p : Processor σ D) (g : CSt D → CSt D) : Prop where
  beforeCluster : ∀ location s, (p.beforeCluster location s).1 = .ok ()
  afterCluster : ∀ c s, (p.afterCluster c s).1 = .ok (g c)

/-- What an archive with processors shows, whatever the processors remember: the entries, turned into other ones by `F`. Entries are
found by url if `F` keeps urls, and redirects lead where they did if `F` keeps where entries lead. -/
structure ShowsTurned (X : Codecs D) (a : Processed σ D) (F : Entry → Entry) : Prop where
  byIndex : ∀ i s, (a.entryByIndex i s).1 = (a.arch.entryByIndex i).map F
  mainPage : ∀ s, (a.mainpageEntry s).1 = a.arch.mainpageEntry.map F
  entries : ∀ start stop s, (a.iterEntries start stop s).1 = (a.arch.iterEntries start stop).map (List.map F)
  articles : ∀ start stop s, (a.iterArticles start stop s).1 = (a.arch.iterArticles start stop).map (List.map F)
  byUrl : (∀ e, (F e).fullUrl = e.fullUrl) → ∀ u s, (a.entryByFullUrl u s).1 = (a.arch.entryByFullUrl u).map F
  has : (∀ e, (F e).fullUrl = e.fullUrl) → ∀ u s, (a.hasEntry u s).1 = a.arch.hasEntry u
  resolved : (∀ e, (F e).kind = e.kind ∧ (F e).isRedirect = e.isRedirect) → ∀ follow e s,
    (a.resolve follow (F e) s).1 = (a.arch.resolve follow e).map F
  contents : ∀ kind e start stop s, (a.readContent X kind e start stop s).1 = a.arch.readContent X kind e start stop
  sizes : ∀ kind e s, (a.contentSize X kind e s).1 = a.arch.contentSize X kind e

/-- A processor that notes each entry that is got, with its location. -/
structure Processor.Notes (p : Processor σ D) (log : σ → List (Int × Entry)) : Prop where
  beforeEntry : ∀ location s, log (p.beforeEntry location s).2 = log s
  afterEntry : ∀ location e s, log (p.afterEntry location e s).2 = log s ++ [(location, e)]

/-- A processor that does not touch these notes. -/
structure Processor.Silent (p : Processor σ D) (log : σ → List (Int × Entry)) : Prop where
  beforeEntry : ∀ location s, log (p.beforeEntry location s).2 = log s
  afterEntry : ∀ location e s, log (p.afterEntry location e s).2 = log s

end Pyzim
