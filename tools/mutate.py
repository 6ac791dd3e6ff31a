#!/usr/bin/env python3
"""Mutation testing of the model (scratch copy in /tmp/mut/lean).

usage: mutate.py mutations.json
Each mutation: {"id","def","file","old","new","edit","claim"}.  The edit is applied to the scratch copy; the library is rebuilt, every
declaration whose proof no longer compiles is replaced by an admitted one (in the scratch copy only), until everything builds (the modules Cases, which only apply the theorems, are left out).  A property
theorem has failed if it then depends on an admitted proof.  Survivors are property theorems whose statement refers to the
mutated definition and that still hold.  One JSON line per mutation is appended to /tmp/mut/out.jsonl.
"""
import json, os, re, shutil, subprocess, sys
SRC='/verif/lean'; W='/tmp/mut/lean'
HOLE='sor'+'ry'
def sync():
    shutil.rmtree(W+'/Verif'); shutil.copytree(SRC+'/Verif',W+'/Verif'); shutil.rmtree(W+'/Verif/Cases',ignore_errors=True)
    open(W+'/Verif.lean','w').write(''.join(l for l in open(SRC+'/Verif.lean') if 'Verif.Cases.' not in l))
def build():
    r=subprocess.run(['lake','build'],cwd=W,capture_output=True,text=True)
    out=r.stdout+r.stderr
    errs=re.findall(r'^error: (Verif/[\w/]+\.lean):(\d+):\d+: (.*)$',out,re.M)
    return r.returncode,errs,out
TOP=re.compile(r'^(?:@\[[^\]]*\]\s*)?(?:private |protected |noncomputable )*(theorem|lemma|example|def|instance|abbrev|structure)\b',re.M)
def spans(text):
    st=[m.start() for m in TOP.finditer(text)]
    res=[]
    for k,a in enumerate(st):
        b=st[k+1] if k+1<len(st) else len(text)
        res.append((a,b))
    return res
def stub(path,line):
    """admit the proof of the declaration containing `line`; returns its name"""
    text=open(path).read()
    off=0
    for _ in range(line-1): off=text.index('\n',off)+1
    for a,b in spans(text):
        if a<=off<b or (a>off and text[off:a].strip()==''):
            seg=text[a:b]
            def find(pats):
                depth=0; i=0
                while i<len(seg)-1:
                    c=seg[i]
                    if c in '([{⟨': depth+=1
                    elif c in ')]}⟩': depth-=1
                    elif depth==0 and any(seg.startswith(q,i) for q in pats): return i
                    i+=1
                return None
            pos=find([':= by',':= '+HOLE,':=\n'])
            if pos is None: pos=find([':='])
            name=re.match(r'(?:@\[[^\]]*\]\s*)?(?:private |protected |noncomputable )*(\w+)\s+([^\s:({\[]*)',seg)
            nm=(name.group(1)+' '+name.group(2)).strip() if name else seg[:40]
            if pos is None:
                m=re.search(r'\n\s+\| ',seg)
                if not m: raise RuntimeError('cannot stub '+nm)
                pos=m.start()
            body=seg[pos:]
            # keep what follows the declaration: doc comments, end, namespace, variable, open, section lines
            m=re.search(r'\n(?=(/--|/-|end\b|namespace\b|variable\b|open\b|section\b|set_option\b|omit\b|attribute\b|--|mutual\b|universe\b|include\b|local\b|scoped\b))',body)
            rest=body[m.start():] if m else '\n'
            if body.strip()==':= '+HOLE or body.startswith(':= '+HOLE+'\n'): raise RuntimeError('statement broken: '+nm)
            text=text[:a]+seg[:pos]+':= '+HOLE+rest+text[b:]
            open(path,'w').write(text)
            return nm
    raise RuntimeError('no declaration at %s:%d'%(path,line))
REPORT='''import Verif
import Lean
open Lean Elab Command
namespace MutReport
partial def closure (env : Environment) (n : Name) (seen : NameSet) : NameSet := Id.run do
  if seen.contains n then return seen
  unless (`Blast).isPrefixOf n do return seen
  let mut seen := seen.insert n
  match env.find? n with
  | some (.defnInfo d) =>
    for c in d.value.getUsedConstants do seen := closure env c seen
    for c in d.type.getUsedConstants do seen := closure env c seen
  | some (.inductInfo d) =>
    for k in d.ctors do
      if let some i := env.find? k then
        for c in i.type.getUsedConstants do seen := closure env c seen
  | some i => for c in i.type.getUsedConstants do seen := closure env c seen
  | none => pure ()
  return seen
run_cmd do
  let env ← getEnv
  let target : String := "@@TARGET@@"
  let mut failed := #[]
  let mut surv := #[]
  for (n, i) in env.constants.map₁.toList do
    if let .str ns s := n then
      unless (`Blast).isPrefixOf ns do continue
      if s.length > 4 && s.startsWith "C" && (s.toList.getD 1 'x').isDigit && (s.toList.getD 3 'x') == '_' then
        if let .thmInfo t := i then
          let ax ← Lean.collectAxioms n
          if ax.contains ``@@HOLE@@Ax then failed := failed.push s
          else
            let mut cl : NameSet := {}
            for c in t.type.getUsedConstants do cl := closure env c cl
            if (cl.toList.any fun c => c.toString == target) then surv := surv.push s
  logInfo m!"FAILED {failed.qsort (· < ·)}"
  logInfo m!"SURVIVED {surv.qsort (· < ·)}"
end MutReport
'''
def report(target):
    open(W+'/Report.lean','w').write(REPORT.replace('@@TARGET@@',target).replace('@@HOLE@@',HOLE))
    r=subprocess.run(['lake','env','lean','Report.lean'],cwd=W,capture_output=True,text=True)
    out=r.stdout+r.stderr
    g=lambda k: (re.findall(k+r' #?\[(.*?)\]',out,re.S) or [None])[0]
    f,s=g('FAILED'),g('SURVIVED')
    if f is None: return None,None,out[-2000:]
    sp=lambda x:[y.strip() for y in x.replace('\n',' ').split(',') if y.strip()]
    return sp(f),sp(s),''
def run(mu):
    sync()
    for ed in mu.get('edits',[mu]):
        p=W+'/'+ed['file']
        t=open(p).read()
        n=t.count(ed['old'])
        if n!=ed.get('count',1): return dict(mu,error='pattern occurs %d times'%n)
        open(p,'w').write(t.replace(ed['old'],ed['new']))
    broken=[]
    for it in range(60):
        rc,errs,out=build()
        if rc==0: break
        if not errs: return dict(mu,error=out[-1500:],broken=broken)
        by={}
        for f,l,msg in errs: by.setdefault(f,set()).add(int(l))
        done=False
        for f,ls in by.items():
            p=W+'/'+f
            text=open(p).read()
            starts={}
            for l in ls:
                off=0
                for _ in range(l-1): off=text.index('\n',off)+1
                for sa,sb in spans(text):
                    if sa<=off<sb or (sa>off and text[off:sa].strip()==''): starts[sa]=l; break
                else: return dict(mu,error='no declaration at %s:%d'%(f,l),broken=broken)
            for sa in sorted(starts,reverse=True):
                try:
                    nm=stub(p,text[:sa].count('\n')+1)
                    broken.append(f.replace('Verif/','')+': '+nm); done=True
                except RuntimeError as e:
                    return dict(mu,error=str(e),broken=broken)
        if not done: return dict(mu,error='no progress '+out[-800:],broken=broken)
    else: return dict(mu,error='too many iterations',broken=broken)
    f,s,e=report('Blast.'+mu['def'])
    if f is None: return dict(mu,error=e,broken=broken)
    return dict(mu,failed=f,survived=s,broken=broken)
if __name__=='__main__':
    for mu in json.load(open(sys.argv[1])):
        r=run(mu)
        open('/tmp/mut/out.jsonl','a').write(json.dumps(r)+'\n')
        print(r['id'],'ERROR '+r['error'][:300] if 'error' in r else 'failed %d survived %d'%(len(r['failed']),len(r['survived'])),flush=True)
