import Verif
open Lean
partial def walk (env : Environment) (n : Name) (s : NameSet) : NameSet := Id.run do
  if s.contains n then return s
  let some ci := env.find? n | return s
  let mut s := s.insert n
  let isV := match env.getModuleIdxFor? n with
    | some i => (`Verif).isPrefixOf env.header.moduleNames[i]!
    | none => false
  if !isV then return s
  for c in ci.getUsedConstantsAsSet do
    s := walk env c s
  return s
run_cmd do
  let env ← getEnv
  let j ← IO.FS.readFile "/verif/MANIFEST.json"
  let .ok js := Json.parse j | return
  let .ok cl := js.getObjVal? "claims" | return
  let .ok cs := cl.getArr? | return
  let h ← IO.FS.Handle.mk "/tmp/deps.txt" .write
  for c in cs do
    let .ok ths := c.getObjVal? "theorems" | continue
    let .ok a := ths.getArr? | continue
    for t in a do
      let .ok t := t.getStr? | continue
      let n := t.toName
      let s := walk env n {}
      let names := s.toList.filter fun m => match env.getModuleIdxFor? m with
        | some i => (`Verif).isPrefixOf env.header.moduleNames[i]!
        | none => false
      h.putStrLn (t ++ "\t" ++ String.intercalate " " (names.map toString))
