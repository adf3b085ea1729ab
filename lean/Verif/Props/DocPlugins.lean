import Verif.Model.DocPlugins
import Verif.Spec.DocPlugins
import Verif.Props.Builtins
import Verif.Props.SectionExt
/-!
# C164 — the handlers and processors registered with a document
-/
namespace Verif.Props.DocPlugins
open Verif Verif.Registry Verif.Builtins Verif.DocPlugins Verif.Spec.DocPlugins
open Verif.Spec.Args (documented)

/-- The registry with the built-in handlers. -/
def base : Reg := (registerExtensions Registry.new).2

theorem all_secs (l : List Tag) : ∀ r : Reg, (registerAll l r).2.secs = r.secs := by
  induction l with
  | nil => intro r; rfl
  | cons h l ih =>
    intro r
    rw [registerAll]
    unfold Registry.registerTag
    by_cases hh : Map.has r.tags h.name = true
    · rw [if_pos hh]
    · rw [if_neg hh]; dsimp only; rw [ih]

theorem builtins_ok : (registerBuiltins Registry.new).1 = true := (Builtins.C154_all Registry.new).1.2 (fun _ _ => rfl)

theorem base_eq : registerExtensions Registry.new = (true, base) ∧ base.tags = (registerBuiltins Registry.new).2.tags ∧
    base.secs = Map.insert [] projectSec.name projectSec := by
  have h1 := builtins_ok
  have h2 : (registerBuiltins Registry.new).2.secs = [] := all_secs handlers Registry.new
  unfold base registerExtensions
  generalize registerBuiltins Registry.new = R at h1 h2
  obtain ⟨b, r⟩ := R
  dsimp only at h1 h2
  subst h1
  dsimp only
  unfold Registry.registerSec
  rw [h2]
  exact ⟨rfl, rfl, rfl⟩

theorem init_eq (d : PDoc) : setUp d = (true, { d with reg := some base }) := by
  unfold setUp
  rw [base_eq.1]

/-- The registry that a registration works on. -/
def eff (d : PDoc) : Reg := d.reg.getD base

theorem prepared_eq (d : PDoc) : prepared d = (true, { d with reg := some (eff d) }) := by
  unfold prepared eff
  obtain ⟨t, r⟩ := d
  cases r with
  | none => exact init_eq _
  | some r => rfl

theorem tag_eq (e : Str) (h : Tag) (d : PDoc) :
    DocPlugins.registerTag e h d = ((customTag e h (eff d)).1, { d with reg := some (customTag e h (eff d)).2 }) := by
  unfold DocPlugins.registerTag
  rw [prepared_eq]

theorem sec_eq (e : Str) (p : Sec) (d : PDoc) :
    DocPlugins.registerSec e p d = ((customSec e p (eff d)).1, { d with reg := some (customSec e p (eff d)).2 }) := by
  unfold DocPlugins.registerSec
  rw [prepared_eq]

theorem hasSec_iff (r : Reg) (n hd : Str) (ls : List Str) : hasSec r n = true ↔ processSec r n hd ls ≠ none := by
  unfold hasSec processSec Map.has
  cases Map.get r.secs n <;> simp

theorem hasTag_iff (r : Reg) (n a : Str) : hasTag r n = true ↔ processTag r n a ≠ none := by
  unfold hasTag processTag Map.has
  cases Map.get r.tags n <;> simp

theorem custom_tag (e : Str) (h : Tag) (r : Reg) (n a : Str) :
    processTag (customTag e h r).2 n a = (processTag r n a).or (if h.name = n then some (h.process a) else none) := by
  have hc := (Builtins.C154_custom e h projectSec r).1
  by_cases hh : hasTag r h.name = true
  · rw [if_pos hh] at hc
    rw [hc]
    by_cases hn : h.name = n
    · subst hn
      have := (hasTag_iff r h.name a).1 hh
      cases hp : processTag r h.name a with
      | none => exact absurd hp this
      | some x => rfl
    · rw [if_neg hn, Option.or_none]
  · rw [if_neg hh] at hc
    rw [hc.2]
    by_cases hn : n = h.name
    · subst hn
      have : processTag r h.name a = none := by
        cases hp : processTag r h.name a with
        | none => rfl
        | some x => exact absurd ((hasTag_iff r h.name a).2 (by rw [hp]; simp)) hh
      rw [this, if_pos rfl]; simp
    · rw [if_neg hn, if_neg (fun k => hn k.symm), Option.or_none]

theorem custom_sec (e : Str) (p : Sec) (r : Reg) (n hd : Str) (ls : List Str) :
    processSec (customSec e p r).2 n hd ls = (processSec r n hd ls).or (if p.name = n then some (p.process hd ls) else none) := by
  have hc := (Builtins.C154_custom e ⟨[], fun _ => .ignored⟩ p r).2
  by_cases hh : hasSec r p.name = true
  · rw [if_pos hh] at hc
    rw [hc]
    by_cases hn : p.name = n
    · subst hn
      have := (hasSec_iff r p.name hd ls).1 hh
      cases hp : processSec r p.name hd ls with
      | none => exact absurd hp this
      | some x => rfl
    · rw [if_neg hn, Option.or_none]
  · rw [if_neg hh] at hc
    rw [hc.2]
    by_cases hn : n = p.name
    · subst hn
      have : processSec r p.name hd ls = none := by
        cases hp : processSec r p.name hd ls with
        | none => rfl
        | some x => exact absurd ((hasSec_iff r p.name hd ls).2 (by rw [hp]; simp)) hh
      rw [this, if_pos rfl]; simp
    · rw [if_neg hn, if_neg (fun k => hn k.symm), Option.or_none]

theorem customTag_secs (e : Str) (h : Tag) (r : Reg) (n hd : Str) (ls : List Str) : processSec (customTag e h r).2 n hd ls = processSec r n hd ls := by
  unfold customTag Registry.registerTag
  by_cases hh : Map.has r.tags h.name = true
  · rw [if_pos hh]
  · rw [if_neg hh]; rfl

theorem customSec_tags (e : Str) (p : Sec) (r : Reg) (n a : Str) : processTag (customSec e p r).2 n a = processTag r n a := by
  unfold customSec Registry.registerSec
  by_cases hh : Map.has r.secs p.name = true
  · rw [if_pos hh]
  · rw [if_neg hh]; rfl

/-- The handlers of the calls. -/
def tags : List Call → List Tag
  | [] => []
  | .tag _ h :: l => h :: tags l
  | _ :: l => tags l

/-- The processors of the calls. -/
def secs : List Call → List Sec
  | [] => []
  | .sec _ p :: l => p :: secs l
  | _ :: l => secs l

/-- The registry is not set up again. -/
def Steady (l : List Call) : Prop := ∀ c ∈ l, c ≠ .init

theorem run_tags (l : List Call) : ∀ d : PDoc, Steady l → ∀ n a, processTag (eff (run d l)) n a =
    (processTag (eff d) n a).or (((tags l).find? (fun h => h.name = n)).map (fun h => h.process a)) := by
  induction l with
  | nil => intro d _ n a; show processTag (eff d) n a = _; rw [tags]; simp
  | cons c l ih =>
    intro d hs n a
    show processTag (eff (run (step d c) l)) n a = _
    rw [ih (step d c) (fun c h => hs c (List.mem_cons_of_mem _ h)) n a]
    cases c with
    | init => exact absurd rfl (hs .init List.mem_cons_self)
    | edit s => rfl
    | sec e p =>
      rw [DocPlugins.step, sec_eq, show tags (.sec e p :: l) = tags l from rfl, show eff { d with reg := some (customSec e p (eff d)).2 } = (customSec e p (eff d)).2 from rfl, customSec_tags]
    | tag e h =>
      rw [DocPlugins.step, tag_eq, tags, show eff { d with reg := some (customTag e h (eff d)).2 } = (customTag e h (eff d)).2 from rfl, custom_tag,
        List.find?_cons, Option.or_assoc]
      congr 1
      by_cases hn : h.name = n <;> simp [hn]

theorem run_secs (l : List Call) : ∀ d : PDoc, Steady l → ∀ n hd ls, processSec (eff (run d l)) n hd ls =
    (processSec (eff d) n hd ls).or (((secs l).find? (fun p => p.name = n)).map (fun p => p.process hd ls)) := by
  induction l with
  | nil => intro d _ n a ls; show processSec (eff d) n a ls = _; rw [secs]; simp
  | cons c l ih =>
    intro d hs n a ls
    show processSec (eff (run (step d c) l)) n a ls = _
    rw [ih (step d c) (fun c h => hs c (List.mem_cons_of_mem _ h)) n a ls]
    cases c with
    | init => exact absurd rfl (hs .init List.mem_cons_self)
    | edit s => rfl
    | tag e h =>
      rw [DocPlugins.step, tag_eq, show secs (.tag e h :: l) = secs l from rfl, show eff { d with reg := some (customTag e h (eff d)).2 } = (customTag e h (eff d)).2 from rfl, customTag_secs]
    | sec e p =>
      rw [DocPlugins.step, sec_eq, secs, show eff { d with reg := some (customSec e p (eff d)).2 } = (customSec e p (eff d)).2 from rfl, custom_sec,
        List.find?_cons, Option.or_assoc]
      congr 1
      by_cases hn : p.name = n <;> simp [hn]

theorem find_first {α : Type} {name : α → Str} {l : List α} {n : Str} {x : α} (h : First name l n x) : l.find? (fun a => name a = n) = some x := by
  obtain ⟨pre, post, rfl, h1, h2⟩ := h
  rw [List.find?_append, List.find?_eq_none.2 (by simpa using h2), List.find?_cons]
  simp [h1]

theorem find_none {α : Type} {name : α → Str} {l : List α} {n : Str} (h : ∀ b ∈ l, name b ≠ n) : l.find? (fun a => name a = n) = none :=
  List.find?_eq_none.2 (by simpa using h)

/-- A document whose registry has not been set up, or has just been. -/
def Fresh (d : PDoc) : Prop := d.reg = none ∨ ∃ d0, d = (setUp d0).2

theorem fresh_eff {d : PDoc} (h : Fresh d) : eff d = base := by
  rcases h with h | ⟨d0, rfl⟩
  · unfold eff; rw [h]; rfl
  · rw [init_eq]; rfl

theorem base_tags (n a : Str) : processTag base n a = processTag (registerBuiltins Registry.new).2 n a := by
  unfold processTag; rw [base_eq.2.1]

theorem base_secs (n hd : Str) (ls : List Str) :
    processSec base n hd ls = if n = projectSec.name then some (projectSec.process hd ls) else none := by
  unfold processSec
  rw [base_eq.2.2]
  by_cases hn : n = projectSec.name
  · subst hn; rw [Map.get_insert_self, if_pos rfl]; rfl
  · rw [Map.get_insert_ne hn, if_neg hn]; rfl

/-- **C164.** Setting up the registry always succeeds and keeps the text; after any registration, successful or not, the registry is set up. -/
theorem C164_ready (d : PDoc) (e : Str) (h : Tag) (p : Sec) :
    ((setUp d).1 = true ∧ (setUp d).2.reg.isSome ∧ (setUp d).2.text = d.text) ∧
    ((DocPlugins.registerTag e h d).2.reg.isSome ∧ (DocPlugins.registerTag e h d).2.text = d.text) ∧
    ((DocPlugins.registerSec e p d).2.reg.isSome ∧ (DocPlugins.registerSec e p d).2.text = d.text) := by
  rw [init_eq, tag_eq, sec_eq]
  exact ⟨⟨rfl, rfl, rfl⟩, ⟨rfl, rfl⟩, ⟨rfl, rfl⟩⟩

/-- **C164.** Whatever has been registered with a document since its registry was set up, in whatever order and with edits in between: the
documented tags are answered as documented, and every other tag is answered by the first handler registered for it, or not at all. -/
theorem C164_tags {d : PDoc} {l : List Call} {r : Reg} (hf : Fresh d) (hl : Steady l) (hr : (run d l).reg = some r) :
    (∀ t ∈ documented, ∀ args, (t.2 args → processTag r t.1.toList args = some .processed) ∧
      (¬ t.2 args → processTag r t.1.toList args = some .failed)) ∧
    ∀ n, (∀ t ∈ documented, n ≠ t.1.toList) → ∀ args,
      (∀ h, First Tag.name (tags l) n h → processTag r n args = some (h.process args)) ∧
      ((∀ h ∈ tags l, h.name ≠ n) → processTag r n args = none) := by
  have e : r = eff (run d l) := by unfold eff; rw [hr]; rfl
  subst e
  obtain ⟨h1, h2⟩ := (Builtins.C154_all Registry.new).2 builtins_ok
  refine ⟨fun t ht args => ?_, fun n hn args => ?_⟩
  · rw [run_tags l d hl, fresh_eff hf, base_tags]
    exact ⟨fun g => by rw [(h1 t ht args).1 g]; rfl, fun g => by rw [(h1 t ht args).2 g]; rfl⟩
  · rw [run_tags l d hl, fresh_eff hf, base_tags, h2 n args hn]
    exact ⟨fun h g => by rw [find_first g]; rfl, fun g => by rw [find_none g]; rfl⟩

/-- A handler for a tag of an extension. -/
def glow (x : Res) : Tag := ⟨"glow".toList, fun _ => x⟩
/-- Two registrations of the same tag, and one of a built-in one. -/
def exCalls : List Call := [.tag "a".toList (glow .processed), .edit "x".toList, .tag "b".toList (glow .failed), .tag "c".toList ⟨"b".toList, fun _ => .ignored⟩]

example : Steady exCalls ∧ Fresh ⟨[], none⟩ ∧ First Tag.name (tags exCalls) "glow".toList (glow .processed) :=
  ⟨(by intro c h; simp only [exCalls, List.mem_cons, List.not_mem_nil, or_false] at h; rcases h with rfl | rfl | rfl | rfl <;> simp), .inl rfl, [], _, rfl, rfl, by simp⟩
example : ((run ⟨[], none⟩ exCalls).reg.bind (fun r => processTag r "glow".toList [])) = some .processed ∧
    ((run ⟨[], none⟩ exCalls).reg.bind (fun r => processTag r "b".toList "1".toList)) = some .processed := by decide +kernel

/-- **C164.** The same for sections: `Aegisub Project` is answered by the built-in processor, which accepts exactly settings; every other
section by the first processor registered for it, or not at all. -/
theorem C164_sections {d : PDoc} {l : List Call} {r : Reg} (hf : Fresh d) (hl : Steady l) (hr : (run d l).reg = some r) :
    (∀ ls, processSec r "Aegisub Project".toList "Aegisub Project".toList ls = some .processed ↔ ∀ x ∈ ls, SectionExt.ProjectLine x) ∧
    ∀ n, n ≠ "Aegisub Project".toList → ∀ hd ls,
      (∀ p, First Sec.name (secs l) n p → processSec r n hd ls = some (p.process hd ls)) ∧
      ((∀ p ∈ secs l, p.name ≠ n) → processSec r n hd ls = none) := by
  have e : r = eff (run d l) := by unfold eff; rw [hr]; rfl
  subst e
  refine ⟨fun ls => ?_, fun n hn hd ls => ?_⟩
  · rw [run_secs l d hl, fresh_eff hf, base_secs, if_pos (show "Aegisub Project".toList = projectSec.name from rfl)]
    have h := (SectionExt.C133_aegisub "Aegisub Project".toList ls).1
    show some (projectSec.process _ ls) = some .processed ↔ _
    unfold projectSec
    dsimp only
    constructor
    · intro g
      refine (h.1 ?_).2
      generalize Verif.SectionExt.project "Aegisub Project".toList ls = o at g
      cases o with
      | processed => rfl
      | ignored => exact absurd g (by simp)
      | failed m => exact absurd g (by simp)
    · intro g
      rw [h.2 ⟨rfl, g⟩]
  · rw [run_secs l d hl, fresh_eff hf, base_secs, if_neg (show ¬ n = projectSec.name from hn)]
    exact ⟨fun h g => by rw [find_first g]; rfl, fun g => by rw [find_none g]; rfl⟩

/-- **C164.** A registration fails exactly if the name is taken, by a built-in handler or an earlier registration; the error names the
extension. -/
theorem C164_taken {d : PDoc} {l : List Call} (hf : Fresh d) (hl : Steady l) (e : Str) (h : Tag) (p : Sec) :
    ((DocPlugins.registerTag e h (run d l)).1 = none ↔ (∀ t ∈ documented, h.name ≠ t.1.toList) ∧ ∀ k ∈ tags l, k.name ≠ h.name) ∧
    ((DocPlugins.registerTag e h (run d l)).1 = none ∨ (DocPlugins.registerTag e h (run d l)).1 = some e) ∧
    ((DocPlugins.registerSec e p (run d l)).1 = none ↔ p.name ≠ "Aegisub Project".toList ∧ ∀ k ∈ secs l, k.name ≠ p.name) ∧
    ((DocPlugins.registerSec e p (run d l)).1 = none ∨ (DocPlugins.registerSec e p (run d l)).1 = some e) := by
  rw [tag_eq, sec_eq]
  dsimp only
  have hc := Builtins.C154_custom e h p (eff (run d l))
  have ht : hasTag (eff (run d l)) h.name = true ↔ ¬ ((∀ t ∈ documented, h.name ≠ t.1.toList) ∧ ∀ k ∈ tags l, k.name ≠ h.name) := by
    obtain ⟨h1, h2⟩ := (Builtins.C154_all Registry.new).2 builtins_ok
    rw [hasTag_iff _ _ [], run_tags l d hl, fresh_eff hf, base_tags]
    by_cases hd : ∀ t ∈ documented, h.name ≠ t.1.toList
    · rw [h2 _ _ hd, show processTag Registry.new h.name [] = none from rfl, Option.none_or]
      by_cases hk : ∀ k ∈ tags l, k.name ≠ h.name
      · rw [find_none hk]
        exact ⟨fun g => absurd rfl g, fun g => absurd ⟨hd, hk⟩ g⟩
      · cases hq : (tags l).find? (fun k => k.name = h.name) with
        | none => exact absurd (by simpa using List.find?_eq_none.1 hq) hk
        | some x => exact ⟨fun _ g => hk g.2, fun _ => by simp⟩
    · have : processTag (registerBuiltins Registry.new).2 h.name [] ≠ none := by
        have hx : ∃ t, ∃ ht : t ∈ documented, h.name = t.1.toList := by
          apply Classical.byContradiction
          intro hno
          exact hd (fun t ht e => hno ⟨t, ht, e⟩)
        obtain ⟨t, ht, hn⟩ := hx
        rw [hn]
        by_cases g : t.2 []
        · rw [(h1 t ht []).1 g]; simp
        · rw [(h1 t ht []).2 g]; simp
      cases hq : processTag (registerBuiltins Registry.new).2 h.name [] with
      | none => exact absurd hq this
      | some x => exact ⟨fun _ g => hd g.1, fun _ => by simp⟩
  have hs : hasSec (eff (run d l)) p.name = true ↔ ¬ (p.name ≠ "Aegisub Project".toList ∧ ∀ k ∈ secs l, k.name ≠ p.name) := by
    rw [hasSec_iff _ _ [] [], run_secs l d hl, fresh_eff hf, base_secs]
    by_cases hd : p.name = projectSec.name
    · rw [if_pos hd]; simp [show p.name = "Aegisub Project".toList from hd]
    · rw [if_neg hd, Option.none_or]
      by_cases hk : ∀ k ∈ secs l, k.name ≠ p.name
      · rw [find_none hk]
        exact ⟨fun g => absurd rfl g, fun g => absurd ⟨hd, hk⟩ g⟩
      · cases hq : (secs l).find? (fun k => k.name = p.name) with
        | none => exact absurd (by simpa using List.find?_eq_none.1 hq) hk
        | some x => exact ⟨fun _ g => hk g.2, fun _ => by simp⟩
  refine ⟨?_, ?_, ?_, ?_⟩
  · by_cases hh : hasTag (eff (run d l)) h.name = true
    · have h1 := hc.1; rw [if_pos hh] at h1; rw [h1]
      exact ⟨fun g => (by simp at g), fun g => absurd g (ht.1 hh)⟩
    · have h1 := hc.1; rw [if_neg hh] at h1
      exact ⟨fun _ => Classical.byContradiction fun g => hh (ht.2 g), fun _ => h1.1⟩
  · by_cases hh : hasTag (eff (run d l)) h.name = true
    · have h1 := hc.1; rw [if_pos hh] at h1; rw [h1]; exact .inr rfl
    · have h1 := hc.1; rw [if_neg hh] at h1; exact .inl h1.1
  · by_cases hh : hasSec (eff (run d l)) p.name = true
    · have h1 := hc.2; rw [if_pos hh] at h1; rw [h1]
      exact ⟨fun g => (by simp at g), fun g => absurd g (hs.1 hh)⟩
    · have h1 := hc.2; rw [if_neg hh] at h1
      exact ⟨fun _ => Classical.byContradiction fun g => hh (hs.2 g), fun _ => h1.1⟩
  · by_cases hh : hasSec (eff (run d l)) p.name = true
    · have h1 := hc.2; rw [if_pos hh] at h1; rw [h1]; exact .inr rfl
    · have h1 := hc.2; rw [if_neg hh] at h1; exact .inl h1.1

/-- **C164.** Parsing with the extensions gives the sections, version and field lists of the plain parser, whatever is registered. -/
theorem C164_parse (d : PDoc) : ∃ s t, DocPlugins.parse d = some s ∧ Parser.parse d.text = some t ∧ s.version = t.version ∧
    s.sections = t.sections ∧ s.stylesFmt = t.stylesFmt ∧ s.eventsFmt = t.eventsFmt := by
  obtain ⟨s, t, h1, h2, h3, h4, h5, h6, _⟩ := SectionExt.C133_same (d.reg.map processors) d.text
  refine ⟨s, t, ?_, h2, h3, h4, h5, h6⟩
  unfold DocPlugins.parse
  cases hr : d.reg with
  | none => rw [hr] at h1; exact h1
  | some r => rw [hr] at h1; exact h1

/-- What the registry answers when asked through its own functions, without messages. -/
def answering (r : Reg) : Verif.SectionExt.Registry := fun n =>
  if hasSec r n then some (fun hd ls => match processSec r n hd ls with
    | some .processed => .processed
    | some .failed => .failed []
    | _ => .ignored) else none

theorem answering_eq (r : Reg) : answering r = processors r := by
  funext n
  unfold answering processors hasSec processSec Map.has
  cases Map.get r.secs n with
  | none => rfl
  | some p =>
    show some _ = some _
    congr 1
    funext hd ls
    show (match some (p.process hd ls) with
      | some .processed => Verif.SectionExt.Result.processed
      | some .failed => .failed []
      | _ => .ignored) = _
    dsimp only
    cases p.process hd ls <;> rfl

/-- **C164, partial.** Parsing with the extensions asks the registry of the document (see `C164_sections` for what it answers) for each
section the library does not know, and for no other.

Missing: sources with an unclosed bracket; the messages. -/
theorem C164_asked_partial {d : PDoc} {r : Reg} {segs : List Spec.Script.Seg} (hr : d.reg = some r) (hsize : Spec.Script.size d.text ≤ 50 * 1024 * 1024)
    (h : Spec.Script.Document d.text segs) :
    ∃ s, DocPlugins.parse d = some s ∧ Spec.SectionExt.Asked (answering r) segs (Spec.SectionExt.fromProcessors s.notes) := by
  rw [answering_eq]
  unfold DocPlugins.parse
  rw [hr]
  exact SectionExt.C133_processors_partial (processors r) hsize h

example : ∃ s, DocPlugins.parse ⟨SectionExt.oddSrc, some base⟩ = some s ∧
    Spec.SectionExt.Asked (answering base) SectionExt.oddSegs (Spec.SectionExt.fromProcessors s.notes) :=
  C164_asked_partial rfl (by decide) SectionExt.odd_document

/-- **C164, disagreement.** Handlers for tags are not asked when a document is parsed with its extensions: registering one changes nothing
about the result. -/
theorem C164_unused_violated (d : PDoc) (e : Str) (h : Tag) (hd : d.reg.isSome) : DocPlugins.parse (DocPlugins.registerTag e h d).2 = DocPlugins.parse d := by
  obtain ⟨t, r⟩ := d
  cases r with
  | none => cases hd
  | some r =>
    rw [tag_eq]
    show Verif.SectionExt.parseWith (some (processors (customTag e h r).2)) t = Verif.SectionExt.parseWith (some (processors r)) t
    have : processors (customTag e h r).2 = processors r := by
      unfold customTag Registry.registerTag
      by_cases hh : Map.has r.tags h.name = true
      · rw [if_pos hh]
      · rw [if_neg hh]; rfl
    rw [this]

/-- **C164, disagreement.** Setting up the registry again succeeds and takes away what was registered. -/
theorem C164_again_violated : ((DocPlugins.registerTag "a".toList (glow .processed) ⟨[], none⟩).2.reg.bind
      (fun r => processTag r "glow".toList [])) = some .processed ∧
    (setUp (DocPlugins.registerTag "a".toList (glow .processed) ⟨[], none⟩).2).1 = true ∧
    ((setUp (DocPlugins.registerTag "a".toList (glow .processed) ⟨[], none⟩).2).2.reg.bind
      (fun r => processTag r "glow".toList [])) = none := by decide +kernel

/-- **C164, disagreement.** A registration that fails is not without effect: the registry is set up, and the parser no longer suggests what
a misspelt section may be. -/
theorem C164_failed_violated :
    let d : PDoc := ⟨"[Styles]\nStyle: Default,Arial\n".toList, none⟩
    (DocPlugins.registerTag "a".toList ⟨"b".toList, fun _ => .ignored⟩ d).1 = some "a".toList ∧
    (DocPlugins.parse d).map (fun s => Verif.Spec.SectionExt.hints s.notes) = some [.styles] ∧
    (DocPlugins.parse (DocPlugins.registerTag "a".toList ⟨"b".toList, fun _ => .ignored⟩ d).2).map (fun s => Verif.Spec.SectionExt.hints s.notes) =
      some [] := by decide +kernel

end Verif.Props.DocPlugins
