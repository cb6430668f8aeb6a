import subprocess,json,re,sys,os,shutil,glob
SRC=os.environ.get('MUTSRC','/verif/lean'); W='/tmp/mut/lean'
def sync():
    subprocess.run(['rsync','-a','--delete','--exclude','.lake',SRC+'/',W+'/'],check=True) if shutil.which('rsync') else subprocess.run(f'cd {W} && rm -rf Verif Verif.lean && cp -r {SRC}/Verif {SRC}/Verif.lean .',shell=True,check=True)
def imports():
    g={}
    for f in glob.glob(W+'/Verif/**/*.lean',recursive=True):
        m=f[len(W)+1:-5].replace('/','.')
        g[m]=re.findall(r'^import (Verif\.\S+)',open(f).read(),flags=re.M)
    return g
def run(muts,log):
    for mu in muts:
        sync()
        p=W+'/Verif/'+mu['file']
        s=open(p).read()
        if s.count(mu['old'])<1: print('NOT FOUND',mu['def'],mu['old'][:50]); continue
        s=s.replace(mu['old'],mu['new'],mu.get('count',1))
        open(p,'w').write(s)
        for (f2,o2,n2) in mu.get('also',[]):
            p2=W+'/Verif/'+f2; s2=open(p2).read()
            if o2 not in s2: print('ALSO NOT FOUND',mu['def'])
            open(p2,'w').write(s2.replace(o2,n2,1))
        r=subprocess.run('lake build 2>&1',shell=True,cwd=W,capture_output=True,text=True)
        fails=[];mods=set()
        for m in re.finditer(r'^error: (Verif/\S+\.lean):(\d+):',r.stdout,flags=re.M):
            f,l=m.group(1),int(m.group(2))
            mods.add(f[:-5].replace('/','.'))
            lines=open(W+'/'+f).read().split('\n')[:l]
            nm=None
            for x in reversed(lines):
                mm=re.match(r'\s*(?:private )?(theorem|def|example|instance|lemma|abbrev)\s*(\S*)',x)
                if mm: nm=mm.group(2) if mm.group(1)!='example' else 'example'; break
            t=f[6:-5]+': '+str(nm)
            if t not in fails: fails.append(t)
        g=imports()
        # blocked modules
        blocked=set()
        ch=True
        while ch:
            ch=False
            for m,im in g.items():
                if m not in blocked and m not in mods and any(i in mods or i in blocked for i in im): blocked.add(m);ch=True
        e={"definition":mu['def'],"edit":mu['edit'],"claim_broken":mu['claim'],"theorems_failed":fails,"modules_blocked":sorted(b for b in blocked if b.startswith('Verif.Props')),"theorems_tightened":[]}
        print(json.dumps(e,ensure_ascii=False),flush=True)
        open(log,'a').write(json.dumps(e,ensure_ascii=False)+'\n')
if __name__=='__main__':
    import importlib.util
    spec=importlib.util.spec_from_file_location('m',sys.argv[1]); m=importlib.util.module_from_spec(spec); spec.loader.exec_module(m)
    run(m.M,sys.argv[2])
