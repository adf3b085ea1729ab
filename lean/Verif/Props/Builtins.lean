import Verif.Model.Builtins
import Verif.Lemmas.Registry
import Verif.Props.Handlers
/-! Property C154: registering the built-in handlers, and those of extensions. -/
namespace Verif.Props.Builtins
open Verif
open Verif.Registry
open Verif.Builtins
open Verif.Spec.Args (documented)

theorem hasTag_new {h : Tag} {r : Reg} (n : Str) (he : hasTag r h.name = false) :
    (registerTag h r).1 = true ∧ processTag (registerTag h r).2 n = (if n = h.name then fun a => some (h.process a) else processTag r n) := by
  unfold registerTag
  have he' : Map.has r.tags h.name = false := he
  rw [he']
  refine ⟨rfl, ?_⟩
  funext a
  show (Map.get (Map.insert r.tags h.name h) n).map _ = _
  by_cases hn : n = h.name
  · subst hn
    rw [if_pos rfl, Map.get_insert_self]; rfl
  · rw [if_neg hn, Map.get_insert_ne hn]; rfl

theorem hasTag_old {h : Tag} {r : Reg} (he : hasTag r h.name = true) : registerTag h r = (false, r) := by
  unfold registerTag
  have he' : Map.has r.tags h.name = true := he
  rw [he']; rfl

theorem has_process (r : Reg) (n : Str) : hasTag r n = true ↔ ∀ a, processTag r n a ≠ none := by
  unfold hasTag processTag Map.has
  cases Map.get r.tags n with
  | none => simp
  | some h => simp

theorem hasTag_after {h : Tag} {r : Reg} (n : Str) (he : hasTag r h.name = false) :
    hasTag (registerTag h r).2 n = true ↔ n = h.name ∨ hasTag r n = true := by
  rw [has_process, has_process, (hasTag_new n he).2]
  by_cases hn : n = h.name
  · subst hn; simp
  · rw [if_neg hn]; simp [hn]

/-- The general fact: handlers with different names, one after the other. -/
theorem all_ok (l : List Tag) : ∀ (r : Reg), (l.map Tag.name).Nodup →
    ((registerAll l r).1 = true ↔ ∀ h ∈ l, hasTag r h.name = false) ∧
    ((registerAll l r).1 = true → ∀ n a, processTag (registerAll l r).2 n a =
      match l.find? (fun h => h.name = n) with
      | some h => some (h.process a)
      | none => processTag r n a) := by
  induction l with
  | nil => intro r _; simp [registerAll]
  | cons h l ih =>
    intro r hd
    rw [List.map_cons, List.nodup_cons] at hd
    by_cases hh : hasTag r h.name = true
    · have : registerAll (h :: l) r = (false, r) := by
        rw [registerAll, hasTag_old hh]
      rw [this]
      refine ⟨⟨fun h => absurd h (by simp), fun g => ?_⟩, fun h => absurd h (by simp)⟩
      rw [g h List.mem_cons_self] at hh
      exact absurd hh (by simp)
    · have hh : hasTag r h.name = false := by simpa using hh
      have e : registerAll (h :: l) r = registerAll l (registerTag h r).2 := by
        rw [registerAll]
        have := (hasTag_new h.name hh).1
        cases hr : registerTag h r with
        | mk b r' => rw [hr] at this; dsimp only at this; rw [this]
      rw [e]
      obtain ⟨i1, i2⟩ := ih (registerTag h r).2 hd.2
      refine ⟨?_, ?_⟩
      · rw [i1]
        constructor
        · intro g k hk
          rcases List.mem_cons.1 hk with rfl | hk
          · exact hh
          · have := g k hk
            cases hk' : hasTag r k.name with
            | false => rfl
            | true => rw [(hasTag_after k.name hh).2 (.inr hk')] at this; exact absurd this (by simp)
        · intro g k hk
          cases hk' : hasTag (registerTag h r).2 k.name with
          | false => rfl
          | true =>
            rcases (hasTag_after k.name hh).1 hk' with q | q
            · exact absurd (List.mem_map.2 ⟨k, hk, q⟩) hd.1
            · rw [g k (List.mem_cons_of_mem _ hk)] at q; exact absurd q (by simp)
      · intro g n a
        rw [i2 g n a, List.find?_cons]
        have hp := (hasTag_new n hh).2
        by_cases hn : h.name = n
        · have hno : l.find? (fun h => h.name = n) = none := by
            apply List.find?_eq_none.2
            intro k hk q
            exact hd.1 (List.mem_map.2 ⟨k, hk, by rw [hn]; simpa using q⟩)
          rw [hno]
          simp only [hn, decide_true]
          rw [hp, if_pos hn.symm]
        · simp only [hn, decide_false]
          cases l.find? (fun h => h.name = n) with
          | some k => rfl
          | none => dsimp only; rw [hp, if_neg (fun q => hn q.symm)]

theorem nodup : (handlers.map Tag.name).Nodup := by decide +kernel

theorem names : handlers.map Tag.name = order := by decide +kernel

theorem sameNames : (∀ n ∈ order, n ∈ documented.map (fun d => d.1.toList)) ∧ (∀ d ∈ documented, d.1.toList ∈ order) := by
  have h1 : ∀ n ∈ order, n ∈ Handlers.table.map (·.1) := by decide +kernel
  have h2 : ∀ n ∈ Handlers.table.map (·.1), n ∈ order := by decide +kernel
  have h3 : documented.map (fun d => d.1.toList) = Handlers.table.map (·.1) := by rfl
  refine ⟨fun n hn => by rw [h3]; exact h1 n hn, fun d hd => ?_⟩
  apply h2
  rw [← h3]
  exact List.mem_map.2 ⟨d, hd, rfl⟩

theorem find_handler {n : Str} (hn : n ∈ order) (a : Str) :
    ∃ h, handlers.find? (fun h => h.name = n) = some h ∧ processTag Handlers.standard n a = some (h.process a) := by
  have key : ∀ n ∈ order, handlers.find? (fun h => h.name = n) = Handlers.builtin.find? (fun h => h.name = n) := by
    intro n hn
    have hb : ∃ h ∈ Handlers.builtin, h.name = n := by
      have : n ∈ handlers.map Tag.name := by rw [names]; exact hn
      obtain ⟨h, h1, h2⟩ := List.mem_map.1 this
      obtain ⟨m, hm, hf⟩ := List.mem_filterMap.1 h1
      exact ⟨h, List.mem_of_find?_eq_some hf, h2⟩
    have gen : ∀ (l : List Str), n ∈ l →
        (l.filterMap (fun m => Handlers.builtin.find? (fun h => h.name = m))).find? (fun h => h.name = n) =
          Handlers.builtin.find? (fun h => h.name = n) := by
      intro l
      induction l with
      | nil => intro h; exact absurd h (by simp)
      | cons m l ih =>
        intro hm
        rw [List.filterMap_cons]
        by_cases e : m = n
        · subst e
          cases hf : Handlers.builtin.find? (fun h => h.name = m) with
          | none =>
            obtain ⟨h, q1, q2⟩ := hb
            exact absurd (by simpa using q2) (List.find?_eq_none.1 hf h q1)
          | some h =>
            dsimp only
            rw [List.find?_cons, List.find?_some hf]
        · have hm := (List.mem_cons.1 hm).resolve_left (fun q => e q.symm)
          cases hf : Handlers.builtin.find? (fun h => h.name = m) with
          | none => exact ih hm
          | some h =>
            dsimp only
            have := List.find?_some hf
            rw [List.find?_cons]
            have hne : decide (h.name = n) = false := by
              have : h.name = m := by simpa using this
              simp [this, e]
            rw [hne]
            exact ih hm
    exact gen order hn
  have hd : (Handlers.builtin.map Tag.name).Nodup := by decide +kernel
  have hall : registerAll Handlers.builtin Registry.new = (true, Handlers.standard) := by
    have gen : ∀ (l : List Tag) (r : Reg), (registerAll l r).1 = true → (registerAll l r).2 = (l.map Op.addTag).foldl step r := by
      intro l
      induction l with
      | nil => intro r _; rfl
      | cons h l ih =>
        intro r g
        rw [registerAll] at g ⊢
        rw [List.map_cons, List.foldl_cons]
        cases hr : registerTag h r with
        | mk b r' =>
          rw [hr] at g
          cases b with
          | false => exact absurd g (by simp)
          | true =>
            dsimp only at g ⊢
            rw [ih r' g]
            show _ = List.foldl step (registerTag h r).2 _
            rw [hr]
    have h1 : (registerAll Handlers.builtin Registry.new).1 = true := ((all_ok _ Registry.new hd).1).2 (by intro h _; rfl)
    have h2 := gen _ _ h1
    cases hr : registerAll Handlers.builtin Registry.new with
    | mk b r' =>
      rw [hr] at h1 h2
      dsimp only at h1 h2
      rw [h1, h2]
      unfold Handlers.standard Registry.run
      rfl
  have h3 := (all_ok _ Registry.new hd).2 (by rw [hall]) n a
  rw [hall] at h3
  rw [key n hn]
  cases hf : Handlers.builtin.find? (fun h => h.name = n) with
  | none =>
    rw [← key n hn] at hf
    have : n ∈ handlers.map Tag.name := by rw [names]; exact hn
    obtain ⟨h, h1, h2⟩ := List.mem_map.1 this
    exact absurd (by simpa using h2) (List.find?_eq_none.1 hf h h1)
  | some h =>
    rw [hf] at h3
    dsimp only at h3
    exact ⟨h, rfl, h3⟩

/-- **C154 (all).** Registering the built-in handlers succeeds just when the registry answers none of their tags yet.  Then it
answers every documented tag, with success just for arguments as documented, and any other tag as before. -/
theorem C154_all (r : Reg) :
    ((registerBuiltins r).1 = true ↔ ∀ d ∈ documented, hasTag r d.1.toList = false) ∧
    ((registerBuiltins r).1 = true →
      (∀ d ∈ documented, ∀ args, (d.2 args → processTag (registerBuiltins r).2 d.1.toList args = some .processed) ∧
        (¬ d.2 args → processTag (registerBuiltins r).2 d.1.toList args = some .failed)) ∧
      ∀ n args, (∀ d ∈ documented, n ≠ d.1.toList) → processTag (registerBuiltins r).2 n args = processTag r n args) := by
  obtain ⟨h1, h2⟩ := all_ok handlers r nodup
  refine ⟨?_, fun h => ⟨?_, ?_⟩⟩
  · show (registerAll handlers r).1 = true ↔ _
    rw [h1]
    constructor
    · intro g d hd
      have : d.1.toList ∈ handlers.map Tag.name := by rw [names]; exact sameNames.2 d hd
      obtain ⟨h, q1, q2⟩ := List.mem_map.1 this
      rw [← q2]; exact g h q1
    · intro g h hh
      have : h.name ∈ order := by rw [← names]; exact List.mem_map.2 ⟨h, hh, rfl⟩
      obtain ⟨d, q1, q2⟩ := List.mem_map.1 (sameNames.1 _ this)
      rw [← q2]; exact g d q1
  · intro d hd args
    have hk := Verif.Props.C49_accepts d hd args
    obtain ⟨h', q1, q2⟩ := find_handler (sameNames.2 d hd) args
    have := h2 h d.1.toList args
    rw [q1] at this
    show (_ → processTag (registerAll handlers r).2 _ _ = _) ∧ (_ → processTag (registerAll handlers r).2 _ _ = _)
    rw [this]
    dsimp only
    rw [← q2]; exact hk
  · intro n args hn
    have := h2 h n args
    have hf : handlers.find? (fun h => h.name = n) = none := by
      apply List.find?_eq_none.2
      intro k hk q
      have hq : k.name = n := by simpa using q
      have : k.name ∈ order := by rw [← names]; exact List.mem_map.2 ⟨k, hk, rfl⟩
      obtain ⟨d, q1, q2⟩ := List.mem_map.1 (sameNames.1 _ this)
      exact hn d q1 (by rw [q2, hq])
    rw [hf] at this
    exact this

example : (registerBuiltins Registry.new).1 = true ∧
    (registerBuiltins (registerTag ⟨"blur".toList, fun _ => .ignored⟩ Registry.new).2).1 = true ∧
    (registerBuiltins (registerTag ⟨"fad".toList, fun _ => .ignored⟩ Registry.new).2).1 = false := by decide +kernel

/-- **C154 (twice).** Registering the built-in handlers again fails and changes nothing. -/
theorem C154_twice (r : Reg) (h : (registerBuiltins r).1 = true) : registerBuiltins (registerBuiltins r).2 = (false, (registerBuiltins r).2) := by
  have hd : ("b", (documented.head!).2) ∈ documented := by
    show _ ∈ _ :: _
    exact List.mem_cons_self
  have hb := ((C154_all r).2 h).1 _ hd
  have hh : hasTag (registerBuiltins r).2 "b".toList = true := by
    rw [has_process]
    intro a
    by_cases g : (documented.head!).2 a
    · rw [(hb a).1 g]; simp
    · rw [(hb a).2 g]; simp
  have e : ∃ b l, handlers = b :: l ∧ b.name = "b".toList := by
    have := names
    cases hl : handlers with
    | nil => rw [hl] at this; exact absurd this (by decide)
    | cons b l =>
      rw [hl] at this
      exact ⟨b, l, rfl, (List.cons.inj this).1⟩
  obtain ⟨b, l, e1, e2⟩ := e
  show registerAll handlers _ = _
  rw [e1, registerAll, hasTag_old (by rw [e2]; exact hh)]

example : (registerBuiltins Registry.new).1 = true := by decide +kernel

/-- **C154 (kept).** Whether it succeeds or not, registering the built-in handlers takes no handler away: what was answered
before is answered in the same way. -/
theorem C154_kept (r : Reg) (n args : Str) (x : Res) (h : processTag r n args = some x) :
    processTag (registerBuiltins r).2 n args = some x := by
  have gen : ∀ (l : List Tag) (r : Reg), processTag r n args = some x → processTag (registerAll l r).2 n args = some x := by
    intro l
    induction l with
    | nil => intro r h; exact h
    | cons k l ih =>
      intro r h
      rw [registerAll]
      cases hk : hasTag r k.name with
      | true => rw [hasTag_old hk]; exact h
      | false =>
        have h1 := (hasTag_new n hk).1
        have h2 := congrFun (hasTag_new n hk).2 args
        have hne : n ≠ k.name := by
          rintro rfl
          have : hasTag r k.name = true := by
            unfold processTag at h
            unfold hasTag Map.has
            cases hg : Map.get r.tags k.name with
            | none => rw [hg] at h; exact absurd h (by simp)
            | some v => rfl
          rw [hk] at this; exact absurd this (by simp)
        rw [if_neg hne, h] at h2
        cases hr : registerTag k r with
        | mk b r' =>
          rw [hr] at h1 h2
          dsimp only at h1 h2
          subst h1
          exact ih r' h2
  exact gen handlers r h

example : processTag (registerBuiltins (registerTag ⟨"fad".toList, fun _ => .ignored⟩ Registry.new).2).2 "fad".toList [] = some .ignored := by
  decide +kernel

/-- **C154 violated (half done).** A failed registration is not undone: with a handler for `\\fad` present it fails, and yet forty-two
of the built-in handlers are there afterwards, among them `\\b`, but not that for `\\clip`. -/
theorem C154_half_violated :
    let r := (registerTag ⟨"fad".toList, fun _ => .ignored⟩ Registry.new).2
    (registerBuiltins r).1 = false ∧ count r = 1 ∧ count (registerBuiltins r).2 = 43 ∧
    hasTag (registerBuiltins r).2 "b".toList = true ∧ hasTag (registerBuiltins r).2 "clip".toList = false := by decide +kernel

/-- **C154 violated (gaps).** Tags that the renderer carries out have no built-in handler. -/
theorem C154_gaps_violated : ∀ n ∈ ["iclip", "blur", "xbord", "ybord", "xshad", "yshad", "p", "pbo", "K"].map String.toList,
    hasTag (registerBuiltins Registry.new).2 n = false := by decide +kernel

/-- **C154 (extensions).** Registering a handler of an extension fails just when its tag is taken; then the error names the
extension and nothing changes; otherwise its tag is answered by it from then on and every other tag as before.  The same holds
for its processors of sections. -/
theorem C154_custom (e : Str) (h : Tag) (p : Sec) (r : Reg) :
    (if hasTag r h.name then customTag e h r = (some e, r)
     else (customTag e h r).1 = none ∧ ∀ n args, processTag (customTag e h r).2 n args =
       if n = h.name then some (h.process args) else processTag r n args) ∧
    (if hasSec r p.name then customSec e p r = (some e, r)
     else (customSec e p r).1 = none ∧ ∀ n hd ls, processSec (customSec e p r).2 n hd ls =
       if n = p.name then some (p.process hd ls) else processSec r n hd ls) := by
  constructor
  · cases hh : hasTag r h.name with
    | true => unfold customTag; rw [hasTag_old hh]; rfl
    | false =>
      have h1 := (hasTag_new h.name hh).1
      have e2 : customTag e h r = (none, (registerTag h r).2) := by
        unfold customTag
        cases hr : registerTag h r with
        | mk b r' => rw [hr] at h1; dsimp only at h1; rw [h1]
      rw [e2]
      refine ⟨rfl, fun n args => ?_⟩
      show processTag (registerTag h r).2 n args = _
      rw [(hasTag_new n hh).2]
      by_cases hn : n = h.name
      · rw [if_pos hn, if_pos hn]
      · rw [if_neg hn, if_neg hn]
  · unfold customSec registerSec hasSec
    cases hh : Map.has r.secs p.name with
    | true => simp
    | false =>
      simp only [Bool.false_eq_true, if_false]
      refine ⟨trivial, fun n hd ls => ?_⟩
      show (Map.get (Map.insert r.secs p.name p) n).map _ = _
      by_cases hn : n = p.name
      · subst hn
        rw [Map.get_insert_self]; simp
      · rw [Map.get_insert_ne hn, if_neg hn]; rfl

example : (customTag "mine".toList (tagAdapter "glow".toList).1 (registerBuiltins Registry.new).2).1 = none ∧
    (customTag "mine".toList (tagAdapter "b".toList).1 (registerBuiltins Registry.new).2).1 = some "mine".toList := by decide +kernel

/-- **C154 violated (adapters).** The handler made for a tag of an extension answers with success whatever the arguments are, even
where it says of them itself that they are not valid. -/
theorem C154_adapter_violated (n : Str) : (tagAdapter n).2 [] = false ∧ (tagAdapter n).1.process [] = .processed ∧
    (secAdapter n).2 [] [] = false ∧ (secAdapter n).1.process [] [] = .processed := ⟨rfl, rfl, rfl, rfl⟩

/-- **C154 (extensions).** What the validation of the adapters accepts: arguments that are not empty, and sections whose header and lines
are not empty; they have the names they were given and carry out everything. -/
theorem C154_adapter (n : Str) :
    (tagAdapter n).1.name = n ∧ (secAdapter n).1.name = n ∧
    (∀ args, ((tagAdapter n).2 args = true ↔ args ≠ []) ∧ (tagAdapter n).1.process args = .processed) ∧
    ∀ hd ls, ((secAdapter n).2 hd ls = true ↔ hd ≠ [] ∧ ls ≠ []) ∧ (secAdapter n).1.process hd ls = .processed :=
  ⟨rfl, rfl, fun args => ⟨by simp [tagAdapter], rfl⟩, fun hd ls => ⟨by simp [secAdapter], rfl⟩⟩

example : (secAdapter "X".toList).2 "h".toList ["l".toList] = true ∧ (secAdapter "X".toList).2 "h".toList [] = false := by decide

end Verif.Props.Builtins
